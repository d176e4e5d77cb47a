import Verif.Model.Wire

/-!
# Binary form of values and NULL bitmaps

Mirrors `src/types/value/bin.rs` and `src/connection/types/null_bitmap.rs`.
-/

namespace Verif

/-- src/types/value/bin.rs 14-36 `Value::bin_len`. -/
def Value.binLen : Value → Nat
  | .null => 0
  | .tiny _ => 1
  | .short _ => 2
  | .int _ => 4
  | .long _ => 8
  | .utiny _ => 1
  | .ushort _ => 2
  | .uint _ => 4
  | .ulong _ => 8
  | .float _ => 4
  | .double _ => 8
  | .bytes x => lenencSliceLen x
  | .date y m d => if y = 0 ∧ m = 0 ∧ d = 0 then 1 else 5
  | .datetime y mo d h mi s us =>
    if y = 0 ∧ mo = 0 ∧ d = 0 ∧ h = 0 ∧ mi = 0 ∧ s = 0 ∧ us = 0 then 1
    else if h = 0 ∧ mi = 0 ∧ s = 0 ∧ us = 0 then 5
    else if us = 0 then 8
    else 12
  | .time _ d h m s us =>
    if d = 0 ∧ h = 0 ∧ m = 0 ∧ s = 0 ∧ us = 0 then 1
    else if us = 0 then 9
    else 13

/-- src/types/value/bin.rs 39-104 `Serialize for Value` (the bytes appended to the buffer). -/
def Value.serialize : Value → Bytes
  | .null => []
  | .tiny x => leBytes 1 x.toUInt8.toNat
  | .short x => leBytes 2 x.toUInt16.toNat
  | .int x => leBytes 4 x.toUInt32.toNat
  | .long x => leBytes 8 x.toUInt64.toNat
  | .utiny x => leBytes 1 x.toNat
  | .ushort x => leBytes 2 x.toNat
  | .uint x => leBytes 4 x.toNat
  | .ulong x => leBytes 8 x.toNat
  | .float b => leBytes 4 b.toNat
  | .double b => leBytes 8 b.toNat
  | .bytes x => putLenencSlice x
  | .date y m d => [4] ++ leBytes 2 y.toNat ++ [m, d]
  | .datetime y mo d h mi s us =>
    if y = 0 ∧ mo = 0 ∧ d = 0 ∧ h = 0 ∧ mi = 0 ∧ s = 0 ∧ us = 0 then [0]
    else if h = 0 ∧ mi = 0 ∧ s = 0 ∧ us = 0 then [4] ++ leBytes 2 y.toNat ++ [mo, d]
    else if us = 0 then [7] ++ leBytes 2 y.toNat ++ [mo, d, h, mi, s]
    else [11] ++ leBytes 2 y.toNat ++ [mo, d, h, mi, s] ++ leBytes 4 us.toNat
  | .time neg d h m s us =>
    if d = 0 ∧ h = 0 ∧ m = 0 ∧ s = 0 ∧ us = 0 then [0]
    else if us = 0 then [8] ++ [if neg then 1 else 0] ++ leBytes 4 d.toNat ++ [h, m, s]
    else [12] ++ [if neg then 1 else 0] ++ leBytes 4 d.toNat ++ [h, m, s] ++ leBytes 4 us.toNat

/-! ### Decoding -/

/-- src/types/value/bin.rs 106-124 `deserialize_tiny`. -/
def deserializeTiny (unsigned : Bool) : P Value :=
  if unsigned then do return .utiny (← P.checkedEatU8)
  else do return .tiny (← P.checkedEatU8).toInt8

/-- `deserialize_short`. -/
def deserializeShort (unsigned : Bool) : P Value :=
  if unsigned then do return .ushort (← P.checkedEatU16)
  else do return .short (← P.checkedEatU16).toInt16

/-- `deserialize_int`. -/
def deserializeInt (unsigned : Bool) : P Value :=
  if unsigned then do return .uint (← P.checkedEatU32)
  else do return .int (← P.checkedEatU32).toInt32

/-- `deserialize_long`. -/
def deserializeLong (unsigned : Bool) : P Value :=
  if unsigned then do return .ulong (← P.checkedEatU64)
  else do return .long (← P.checkedEatU64).toInt64

/-- src/types/value/bin.rs 126-141. -/
def deserializeDate : P Value := do
  let len ← P.checkedEatU8
  P.checkLen len.toNat
  if 4 ≤ len.toNat then do
    let year ← P.eatU16
    let month ← P.eatU8
    let day ← P.eatU8
    pure (.date year month day)
  else pure (.date 0 0 0)

/-- src/types/value/bin.rs 143-178. -/
def deserializeDatetime : P Value := do
  let len ← P.checkedEatU8
  P.checkLen len.toNat
  let (year, month, day) ←
    if 4 ≤ len.toNat then do
      let year ← P.eatU16
      let month ← P.eatU8
      let day ← P.eatU8
      pure (year, month, day)
    else pure (0, 0, 0)
  let (hour, minute, second) ←
    if 7 ≤ len.toNat then do
      let hour ← P.eatU8
      let minute ← P.eatU8
      let second ← P.eatU8
      pure (hour, minute, second)
    else pure (0, 0, 0)
  let micro ← if len = 11 then P.eatU32 else pure 0
  pure (.datetime year month day hour minute second micro)

/-- src/types/value/bin.rs 180-210. -/
def deserializeTime : P Value := do
  let len ← P.checkedEatU8
  P.checkLen len.toNat
  let (neg, days, hours, minutes, seconds) ←
    if 8 ≤ len.toNat then do
      let neg ← P.eatU8
      let days ← P.eatU32
      let hours ← P.eatU8
      let minutes ← P.eatU8
      let seconds ← P.eatU8
      pure (neg == 1, days, hours, minutes, seconds)
    else pure (false, 0, 0, 0, 0)
  let micros ← if len = 12 then P.eatU32 else pure 0
  pure (.time neg days hours minutes seconds micros)

/-- src/types/value/bin.rs 212-254 `deserialize_bin`; the last arm is `unimplemented!`. -/
def deserializeBin (t : ColumnType) (flags : UInt16) : P Value :=
  match t with
  | .tiny => deserializeTiny (hasFlag16 flags ColFlag.UNSIGNED)
  | .short | .year => deserializeShort (hasFlag16 flags ColFlag.UNSIGNED)
  | .long | .int24 => deserializeInt (hasFlag16 flags ColFlag.UNSIGNED)
  | .longLong => deserializeLong (hasFlag16 flags ColFlag.UNSIGNED)
  | .float => do return .float (← P.checkedEatU32)
  | .double => do return .double (← P.checkedEatU64)
  | .string | .varString | .varchar | .blob | .tinyBlob | .mediumBlob | .longBlob | .set | .enum
  | .decimal | .bit | .newDecimal | .geometry | .json => do
    return .bytes (← P.checkedEatLenencSlice)
  | .date => deserializeDate
  | .timestamp | .datetime => deserializeDatetime
  | .time => deserializeTime
  | .null => pure .null
  | _ => SM.crash

/-! ### NULL bitmaps (src/connection/types/null_bitmap.rs)

`client` is the const parameter `CLIENT_SIDE`; the bitmap itself is the byte vector. -/

namespace NullBitmap

/-- null_bitmap.rs 10-15. -/
def offset (client : Bool) : Nat := if client then 0 else 2

/-- null_bitmap.rs 6-8. -/
def bitmapLen (client : Bool) (numColumns : Nat) : Nat := (numColumns + 7 + offset client) / 8

/-- null_bitmap.rs 17-25: byte position and bit mask; `assert!` panics outside the bitmap. -/
def byteAndBit (client : Bool) (bm : Bytes) (i : Nat) : Out ε (Nat × UInt8) :=
  let off := i + offset client
  if off / 8 < bm.length then .ok (off / 8, 1 <<< UInt8.ofNat (off % 8)) else .panic

/-- null_bitmap.rs 27-30. -/
def isNull (client : Bool) (bm : Bytes) (i : Nat) : Out ε Bool := do
  let (byte, bit) ← byteAndBit client bm i
  match bm[byte]? with
  | some b => pure (b &&& bit != 0)
  | none => .panic

/-- null_bitmap.rs 45-49. -/
def new (client : Bool) (numColumns : Nat) : Bytes :=
  List.replicate (bitmapLen client numColumns) 0

/-- null_bitmap.rs 52-59. -/
def set (client : Bool) (bm : Bytes) (i : Nat) (isNull : Bool) : Out ε Bytes := do
  let (byte, bit) ← byteAndBit client bm i
  match bm[byte]? with
  | some b => pure (bm.set byte (if isNull then b ||| bit else b &&& ~~~bit))
  | none => .panic

/-- null_bitmap.rs 62-71 `deserialize`. -/
def deserialize (client : Bool) (numColumns : Nat) : P Bytes :=
  P.checkedEat (bitmapLen client numColumns)

end NullBitmap

end Verif

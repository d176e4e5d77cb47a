import Verif.Model.Packets
import Verif.Model.Value

/-!
# Text form of values: decoding

Mirrors `src/types/value/text.rs` 202-387 and `src/connection/types/protocol.rs`.
-/

namespace Verif

/-- `btoi::btou::<T>` (crate `btoi`): ASCII decimal digits only, not empty, checked arithmetic
against the maximum of `T`. -/
def btouLoop (max : Nat) : Nat → Bytes → Option Nat
  | acc, [] => some acc
  | acc, b :: bs =>
    if 48 ≤ b.toNat ∧ b.toNat ≤ 57 then
      if acc * 10 ≤ max ∧ acc * 10 + (b.toNat - 48) ≤ max then
        btouLoop max (acc * 10 + (b.toNat - 48)) bs
      else none
    else none

def btou (max : Nat) (bs : Bytes) : Option Nat :=
  if bs = [] then none else btouLoop max 0 bs

/-- `btoi::btoi::<T>`: optional sign; `max` and `-min` are the limits of `T`. -/
def btoi (min max : Nat) (bs : Bytes) : Option Int :=
  match bs with
  | [] => none
  | b :: r =>
    if b = 0x2B then (btou max r).map Int.ofNat
    else if b = 0x2D then (btou min r).map fun n => -(n : Int)
    else (btou max bs).map Int.ofNat

/-- `f32::from_str` / `f64::from_str` of the Rust standard library (not modelled: any functions). -/
structure FloatParse where
  f32 : Str → Option UInt32
  f64 : Str → Option UInt64

def invalidData : ProtocolError := .io .invalidData

/-- text.rs 203-233 `deserialize_time_text_inner`; `6 - buf.len() as u32` underflows (panic) when there
are more than six fractional digits.  The length is cut to 32 bits there, so that with some 4 GiB of digits the
difference exists again, but the product need not fit (panic). -/
def timeTextInner (value : Bytes) : Out ProtocolError (UInt32 × UInt8 × UInt8 × UInt8 × UInt32) := do
  let invalid : ProtocolError := .parse (.invalidValue .time value)
  let colon := value.findIdx (· == 0x3A)
  if value.length ≤ colon then .err .eof
  else if value.length < colon + 6 ∨ value[colon + 3]? ≠ some 0x3A then .err invalid
  else do
    let hours ← Out.ofOption invalid (btou 4294967295 (value.take colon))
    let minutes ← Out.ofOption invalid (btou 255 ((value.drop (colon + 1)).take 2))
    let seconds ← Out.ofOption invalid (btou 255 ((value.drop (colon + 4)).take 2))
    let micros ←
      if colon + 7 < value.length then
        if value[colon + 6]? ≠ some 0x2E then .err invalid
        else do
          let buf := value.drop (colon + 7)
          let m ← Out.ofOption invalid (btou 4294967295 buf)
          let n := buf.length % 2 ^ 32
          if 6 < n ∨ 2 ^ 32 ≤ m * 10 ^ (6 - n) then .panic else pure (m * 10 ^ (6 - n))
      else pure 0
    pure (UInt32.ofNat (hours / 24), UInt8.ofNat (hours % 24), UInt8.ofNat minutes,
      UInt8.ofNat seconds, UInt32.ofNat micros)

/-- text.rs 235-248 `deserialize_date_text_inner`. -/
def dateTextInner (value : Bytes) : Out ProtocolError (UInt16 × UInt8 × UInt8) := do
  let invalid : ProtocolError := .parse (.invalidValue .date value)
  if value.length ≠ 10 ∨ value[4]? ≠ some 0x2D ∨ value[7]? ≠ some 0x2D then .err invalid
  else do
    let year ← Out.ofOption invalid (btou 65535 (value.take 4))
    let month ← Out.ofOption invalid (btou 255 ((value.drop 5).take 2))
    let day ← Out.ofOption invalid (btou 255 ((value.drop 8).take 2))
    pure (UInt16.ofNat year, UInt8.ofNat month, UInt8.ofNat day)

/-- text.rs 250-265 `deserialize_time_text`. -/
def timeText (value : Bytes) : Out ProtocolError Value :=
  match value with
  | [] => .err .eof
  | b :: r => do
    let (days, hours, minutes, seconds, micros) ← timeTextInner (if b = 0x2D then r else value)
    pure (.time (b == 0x2D) days hours minutes seconds micros)

/-- text.rs 267-270 `deserialize_date_text`. -/
def dateText (value : Bytes) : Out ProtocolError Value := do
  let (year, month, day) ← dateTextInner value
  pure (.date year month day)

/-- text.rs 272-291 `deserialize_datetime_text`: byte 10 is not looked at. -/
def datetimeText (value : Bytes) : Out ProtocolError Value :=
  if value.length < 19 then .err (.parse (.invalidValue .date value))
  else do
    let (year, month, day) ← dateTextInner (value.take 10)
    let (_, hour, minute, second, micro) ← timeTextInner (value.drop 11)
    pure (.datetime year month day hour minute second micro)

/-- text.rs 308-383 `deserialize_text`, the part after the bytes of the value have been taken;
the last arm is `unimplemented!`. -/
def textValue (fp : FloatParse) (t : ColumnType) (flags : UInt16) (bytes : Bytes) :
    Out ProtocolError Value :=
  let uns := hasFlag16 flags ColFlag.UNSIGNED
  match t with
  | .tiny =>
    if uns then Out.ofOption invalidData ((btou 255 bytes).map fun n => .utiny (UInt8.ofNat n))
    else Out.ofOption invalidData ((btoi 128 127 bytes).map fun n => .tiny (Int8.ofInt n))
  | .short | .year =>
    if uns then Out.ofOption invalidData ((btou 65535 bytes).map fun n => .ushort (UInt16.ofNat n))
    else Out.ofOption invalidData ((btoi 32768 32767 bytes).map fun n => .short (Int16.ofInt n))
  | .long | .int24 =>
    if uns then
      Out.ofOption invalidData ((btou 4294967295 bytes).map fun n => .uint (UInt32.ofNat n))
    else
      Out.ofOption invalidData ((btoi 2147483648 2147483647 bytes).map fun n => .int (Int32.ofInt n))
  | .longLong =>
    if uns then
      Out.ofOption invalidData
        ((btou 18446744073709551615 bytes).map fun n => .ulong (UInt64.ofNat n))
    else
      Out.ofOption invalidData
        ((btoi 9223372036854775808 9223372036854775807 bytes).map fun n => .long (Int64.ofInt n))
  | .float => do
    let s ← Out.ofOption invalidData (fromUtf8 bytes)
    Out.ofOption invalidData ((fp.f32 s).map .float)
  | .double => do
    let s ← Out.ofOption invalidData (fromUtf8 bytes)
    Out.ofOption invalidData ((fp.f64 s).map .double)
  | .string | .varString | .varchar | .blob | .tinyBlob | .mediumBlob | .set | .enum | .decimal
  | .bit | .newDecimal | .geometry | .json => .ok (.bytes bytes)
  | .timestamp | .datetime => datetimeText bytes
  | .date => dateText bytes
  | .time => timeText bytes
  | _ => .panic

/-- text.rs 293-308 `deserialize_text`. -/
def deserializeText (fp : FloatParse) (t : ColumnType) (flags : UInt16) : P Value := do
  let s ← SM.get
  match s with
  | [] => SM.fail .eof
  | b :: _ =>
    if b = 0xFB then do
      P.skip 1
      pure .null
    else do
      let bytes ← P.checkedEatLenencSlice
      SM.ofOut (textValue fp t flags bytes)

/-! ### Rows (src/connection/types/protocol.rs) -/

/-- protocol.rs 13-28: the loop over the columns. -/
def textRowLoop (fp : FloatParse) : List Column → P (List Value)
  | [] => pure []
  | c :: cs => do
    let v ← deserializeText fp c.type c.flags
    let vs ← textRowLoop fp cs
    pure (v :: vs)

/-- protocol.rs 13-28 `TextProtocol::read_result_set_row` (trailing bytes are ignored). -/
def readTextRow (fp : FloatParse) (packet : Bytes) (columns : List Column) :
    Out ProtocolError (List Value) := runP (textRowLoop fp columns) packet

/-- protocol.rs 40-51: the loop over the columns from index `i` on. -/
def binRowLoop (bitmap : Bytes) : Nat → List Column → P (List Value)
  | _, [] => pure []
  | i, c :: cs => do
    let null ← SM.ofOut (NullBitmap.isNull false bitmap i)
    if null then do
      let vs ← binRowLoop bitmap (i + 1) cs
      pure (.null :: vs)
    else do
      let v ← deserializeBin c.type c.flags
      let vs ← binRowLoop bitmap (i + 1) cs
      pure (v :: vs)

/-- protocol.rs 34-54 `BinaryProtocol::read_result_set_row`. -/
def readBinRow (packet : Bytes) (columns : List Column) : Out ProtocolError (List Value) :=
  runP (do
    P.skip 1
    let bitmap ← NullBitmap.deserialize false columns.length
    binRowLoop bitmap 0 columns) packet

end Verif

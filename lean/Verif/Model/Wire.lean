import Verif.Model.Types

/-!
# Writing and reading primitive wire fields

Mirrors `src/utils/mod.rs`, `src/utils/buf_mut_ext.rs`, `src/connection/parse_buf.rs`.
-/

namespace Verif

/-! ### Writers -/

/-- src/utils/buf_mut_ext.rs 5-18 `put_lenenc_int` (returns the appended bytes; `n` is a `u64`). -/
def putLenencInt (n : UInt64) : Bytes :=
  if n.toNat < 251 then leBytes 1 n.toNat
  else if n.toNat < 65536 then 0xFC :: leBytes 2 n.toNat
  else if n.toNat < 16777216 then 0xFD :: leBytes 3 n.toNat
  else 0xFE :: leBytes 8 n.toNat

/-- src/utils/buf_mut_ext.rs 21-24 `put_lenenc_slice` (`s.len() as u64`). -/
def putLenencSlice (s : Bytes) : Bytes :=
  putLenencInt (UInt64.ofNat s.length) ++ s

/-- src/utils/buf_mut_ext.rs 28-32 `put_u8_slice`: truncates. -/
def putU8Slice (s : Bytes) : Bytes :=
  let len := min s.length 255
  UInt8.ofNat len :: s.take len

/-- src/utils/buf_mut_ext.rs 36-40 `put_u32_slice`: truncates. -/
def putU32Slice (s : Bytes) : Bytes :=
  let len := min s.length 4294967295
  leBytes 4 len ++ s.take len

/-- src/utils/buf_mut_ext.rs 43-46 `put_null_slice`. -/
def putNullSlice (s : Bytes) : Bytes := s ++ [0]

/-- src/utils/mod.rs 14-24 `lenenc_int_len`. -/
def lenencIntLen (x : Nat) : Nat :=
  if x < 251 then 1 else if x < 65536 then 3 else if x < 16777216 then 4 else 9

/-- src/utils/mod.rs 26-29 `lenenc_slice_len`. -/
def lenencSliceLen (s : Bytes) : Nat := lenencIntLen s.length + s.length

/-- src/utils/mod.rs 31-37 `read_u32`: copies `value` over four zero bytes; panics (index out of
range) for more than four bytes. -/
def readU32 (value : Bytes) : Out Empty Nat :=
  if value.length ≤ 4 then .ok (leNat value) else .panic

/-! ### Readers: `ParseBuf` -/

/-- functions on `&mut ParseBuf`. -/
abbrev P := SM Bytes ProtocolError

namespace P

/-- parse_buf.rs 27-29 `skip`. -/
def skip (n : Nat) : P Unit := SM.modify fun s => s.drop (min n s.length)

/-- parse_buf.rs 32-38 `check_len`. -/
def checkLen (n : Nat) : P Unit := fun s =>
  if s.length < n then (.err .eof, s) else (.ok (), s)

/-- parse_buf.rs 46-50 `eat`: panics if there are too few bytes (`split_at`). -/
def eat (n : Nat) : P Bytes := fun s =>
  if n ≤ s.length then (.ok (s.take n), s.drop n) else (.panic, s)

/-- parse_buf.rs 53-59 `checked_eat`. -/
def checkedEat (n : Nat) : P Bytes := fun s =>
  if n ≤ s.length then eat n s else (.err .eof, s)

/-- parse_buf.rs 62-66 `eat_all`. -/
def eatAll : P Bytes := fun s => (.ok s, [])

/-- parse_buf.rs 90-141 `eat_u8`, `eat_u16`, …, `eat_u24`: little-endian, panicking. -/
def eatNat (k : Nat) : P Nat := do return leNat (← eat k)

/-- parse_buf.rs 101-107, 120-127 `checked_eat_u8`, … -/
def checkedEatNat (k : Nat) : P Nat := do return leNat (← checkedEat k)

def eatU8 : P UInt8 := do return UInt8.ofNat (← eatNat 1)
def eatU16 : P UInt16 := do return UInt16.ofNat (← eatNat 2)
def eatU24 : P UInt32 := do return UInt32.ofNat (← eatNat 3)
def eatU32 : P UInt32 := do return UInt32.ofNat (← eatNat 4)
def eatU64 : P UInt64 := do return UInt64.ofNat (← eatNat 8)
def checkedEatU8 : P UInt8 := do return UInt8.ofNat (← checkedEatNat 1)
def checkedEatU16 : P UInt16 := do return UInt16.ofNat (← checkedEatNat 2)
def checkedEatU24 : P UInt32 := do return UInt32.ofNat (← checkedEatNat 3)
def checkedEatU32 : P UInt32 := do return UInt32.ofNat (← checkedEatNat 4)
def checkedEatU64 : P UInt64 := do return UInt64.ofNat (← checkedEatNat 8)

/-- parse_buf.rs 148-156 `eat_lenenc_int`. -/
def eatLenencInt : P UInt64 := do
  let x ← eatU8
  if x.toNat ≤ 0xfa then pure (UInt64.ofNat x.toNat)
  else if x = 0xfc then do return UInt64.ofNat (← eatU16).toNat
  else if x = 0xfd then do return UInt64.ofNat (← eatU24).toNat
  else if x = 0xfe then eatU64
  else pure 0

/-- parse_buf.rs 158-166 `checked_eat_lenenc_int`. -/
def checkedEatLenencInt : P UInt64 := do
  let x ← checkedEatU8
  if x.toNat ≤ 0xfa then pure (UInt64.ofNat x.toNat)
  else if x = 0xfc then do return UInt64.ofNat (← checkedEatU16).toNat
  else if x = 0xfd then do return UInt64.ofNat (← checkedEatU24).toNat
  else if x = 0xfe then checkedEatU64
  else pure 0

/-- parse_buf.rs 169-172 `eat_lenenc_slice`. -/
def eatLenencSlice : P Bytes := do
  let len ← eatLenencInt
  eat len.toNat

/-- parse_buf.rs 179-182 `checked_eat_lenenc_slice` (`len as usize`, 64-bit). -/
def checkedEatLenencSlice : P Bytes := do
  let len ← checkedEatLenencInt
  checkedEat len.toNat

/-- parse_buf.rs 197-200 `checked_eat_u8_slice`. -/
def checkedEatU8Slice : P Bytes := do
  let len ← checkedEatU8
  checkedEat len.toNat

/-- parse_buf.rs 207-218 `eat_null_slice`: up to and including the first zero byte (which is cut
off the result), everything if there is none. -/
def eatNullSlice : P Bytes := fun s =>
  let i := s.findIdx (· == 0)
  if i < s.length then (.ok (s.take i), s.drop (i + 1)) else (.ok s, [])

end P

end Verif

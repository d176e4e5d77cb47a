import Verif.Model.Wire

/-!
# UTF-8

`std::str::from_utf8`, `String::from_utf8`, `str::as_bytes` (Rust standard library, RFC 3629:
no overlong forms, no surrogates, nothing above U+10FFFF).
-/

namespace Verif

/-- bytes of one character. -/
def utf8Char (c : Char) : Bytes :=
  let n := c.toNat
  if n < 0x80 then [UInt8.ofNat n]
  else if n < 0x800 then [UInt8.ofNat (0xC0 + n / 64), UInt8.ofNat (0x80 + n % 64)]
  else if n < 0x10000 then
    [UInt8.ofNat (0xE0 + n / 4096), UInt8.ofNat (0x80 + n / 64 % 64), UInt8.ofNat (0x80 + n % 64)]
  else
    [UInt8.ofNat (0xF0 + n / 262144), UInt8.ofNat (0x80 + n / 4096 % 64),
     UInt8.ofNat (0x80 + n / 64 % 64), UInt8.ofNat (0x80 + n % 64)]

/-- `str::as_bytes`. -/
def utf8 : Str → Bytes
  | [] => []
  | c :: cs => utf8Char c ++ utf8 cs

/-- continuation byte. -/
def isCont (b : UInt8) : Bool := 0x80 ≤ b.toNat && b.toNat < 0xC0

/-- payload of a continuation byte. -/
def contBits (b : UInt8) : Nat := b.toNat - 0x80

/-- code point of a two-byte sequence. -/
def code2 (b0 b1 : UInt8) : Nat := (b0.toNat - 0xC0) * 64 + contBits b1

/-- code point of a three-byte sequence. -/
def code3 (b0 b1 b2 : UInt8) : Nat := (b0.toNat - 0xE0) * 4096 + contBits b1 * 64 + contBits b2

/-- code point of a four-byte sequence. -/
def code4 (b0 b1 b2 b3 : UInt8) : Nat :=
  (b0.toNat - 0xF0) * 262144 + contBits b1 * 4096 + contBits b2 * 64 + contBits b3

/-- one character off the front. -/
def decodeChar : Bytes → Option (Char × Bytes)
  | [] => none
  | b0 :: r =>
    if b0.toNat < 0x80 then some (Char.ofNat b0.toNat, r)
    else if b0.toNat < 0xC0 then none
    else if b0.toNat < 0xE0 then
      match r with
      | b1 :: r =>
        if isCont b1 ∧ 0x80 ≤ code2 b0 b1 then some (Char.ofNat (code2 b0 b1), r) else none
      | _ => none
    else if b0.toNat < 0xF0 then
      match r with
      | b1 :: b2 :: r =>
        if isCont b1 ∧ isCont b2 ∧ 0x800 ≤ code3 b0 b1 b2 ∧
            ¬(0xD800 ≤ code3 b0 b1 b2 ∧ code3 b0 b1 b2 < 0xE000) then
          some (Char.ofNat (code3 b0 b1 b2), r)
        else none
      | _ => none
    else if b0.toNat < 0xF8 then
      match r with
      | b1 :: b2 :: b3 :: r =>
        if isCont b1 ∧ isCont b2 ∧ isCont b3 ∧ 0x10000 ≤ code4 b0 b1 b2 b3 ∧
            code4 b0 b1 b2 b3 < 0x110000 then
          some (Char.ofNat (code4 b0 b1 b2 b3), r)
        else none
      | _ => none
    else none

/-- all characters; the number of bytes bounds the number of characters. -/
def fromUtf8Loop : Nat → Bytes → Option Str
  | _, [] => some []
  | 0, _ :: _ => none
  | f + 1, b :: bs =>
    match decodeChar (b :: bs) with
    | some (c, r) => (fromUtf8Loop f r).map (c :: ·)
    | none => none

/-- `str::from_utf8`. -/
def fromUtf8 (bs : Bytes) : Option Str := fromUtf8Loop bs.length bs

namespace P

/-- parse_buf.rs 184-186 `checked_eat_lenenc_str`. -/
def checkedEatLenencStr : P Str := do
  let s ← checkedEatLenencSlice
  match fromUtf8 s with
  | some x => pure x
  | none => SM.fail (.parse .utf8)

/-- parse_buf.rs 202-204 `checked_eat_u8_str`. -/
def checkedEatU8Str : P Str := do
  let s ← checkedEatU8Slice
  match fromUtf8 s with
  | some x => pure x
  | none => SM.fail (.parse .utf8)

end P
end Verif

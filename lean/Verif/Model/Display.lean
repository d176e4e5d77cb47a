import Verif.Model.Types

/-!
# Textual forms: escapes, `Display for Value`, hexadecimal text

Mirrors `src/types/value/text.rs` 16-200 and `src/types/hex.rs` 1-87.  A `Display` implementation is
the text that `to_string()` gives (writing to a `String` cannot fail; formatter flags such as a
width are not modelled).
-/

namespace Verif

/-- text.rs 16-65 `write_escaped_chars`, one character. -/
def escChar (c : Char) : Str :=
  if c = '\x00' then ['\\', '0']
  else if c = '\x08' then ['\\', 'b']
  else if c = '\n' then ['\\', 'n']
  else if c = '\r' then ['\\', 'r']
  else if c = '\t' then ['\\', 't']
  else if c = '\x1A' then ['\\', 'z']
  else if c = '\'' then ['\\', '\'']
  else if c = '"' then ['\\', '"']
  else if c = '\\' then ['\\', '\\']
  else [c]

/-- text.rs 16-65 `write_escaped_chars`. -/
def escChars : Str → Str
  | [] => []
  | c :: cs => escChar c ++ escChars cs

/-- text.rs 68-76 `StringEscape`. -/
def stringEscape (s : Str) : Str := ['"'] ++ escChars s ++ ['"']

/-- `char::is_whitespace` (Rust standard library: the Unicode property White_Space). -/
def isWhitespace (c : Char) : Bool :=
  let n := c.toNat
  (9 ≤ n && n ≤ 13) || n == 0x20 || n == 0x85 || n == 0xA0 || n == 0x1680 ||
    (0x2000 ≤ n && n ≤ 0x200A) || n == 0x2028 || n == 0x2029 || n == 0x202F || n == 0x205F ||
    n == 0x3000

/-- text.rs 88-90 `char_valid`. -/
def identValid (c : Char) : Bool := 0x0001 ≤ c.toNat && c.toNat ≤ 0xFFFF

/-- text.rs 92-97: the loop that finds `last_char`; `i` is the index of the first character. -/
def lastCharLoop : Nat → Nat → Str → Nat
  | _, last, [] => last
  | i, last, c :: cs => lastCharLoop (i + 1) (if !isWhitespace c && identValid c then i else last) cs

/-- text.rs 99-106: the loop that writes. -/
def identLoop (last : Nat) : Nat → Str → Str
  | _, [] => []
  | i, c :: cs =>
    (if i ≤ last ∧ identValid c then (if c = '`' then ['`', c] else [c]) else [])
      ++ identLoop last (i + 1) cs

/-- text.rs 81-109 `IdentifierEscape`. -/
def identifierEscape (s : Str) : Str :=
  ['`'] ++ identLoop (lastCharLoop 0 0 s) 0 s ++ ['`']

/-- text.rs 120-122 `char_valid`. -/
def unquotedValid (c : Char) : Bool :=
  ('0' ≤ c && c ≤ '9') || ('a' ≤ c && c ≤ 'z') || ('A' ≤ c && c ≤ 'Z') || c == '$' || c == '_' ||
    (0x80 ≤ c.toNat && c.toNat ≤ 0xFFFF)

/-- text.rs 115-131 `UnquotedIdentifierEscape`. -/
def unquotedIdentifierEscape (s : Str) : Str := s.filter unquotedValid

/-! ### Numbers -/

/-- digit character. -/
def digitChar (n : Nat) : Char := Char.ofNat (48 + n)

/-- `Display` of unsigned integers. -/
def decStr (n : Nat) : Str :=
  if n < 10 then [digitChar n] else decStr (n / 10) ++ [digitChar (n % 10)]

/-- `Display` of signed integers. -/
def intStr (v : Int) : Str := if v < 0 then ['-'] ++ decStr v.natAbs else decStr v.natAbs

/-- `{n:0>k}`. -/
def padStr (k n : Nat) : Str := List.replicate (k - (decStr n).length) '0' ++ decStr n

/-- crate `hex`, `encode`: two lower-case digits per byte. -/
def hexDigit (n : Nat) : Char := if n < 10 then Char.ofNat (48 + n) else Char.ofNat (87 + n)

def hexEncode : Bytes → Str
  | [] => []
  | b :: bs => hexDigit (b.toNat / 16) :: hexDigit (b.toNat % 16) :: hexEncode bs

/-- `Display` of `f32`/`f64` (Rust standard library, not modelled: any functions). -/
structure FloatFmt where
  f32 : UInt32 → Str
  f64 : UInt64 → Str

/-- text.rs 135-142 `format_date`. -/
def formatDate (y : UInt16) (m d : UInt8) : Str :=
  padStr 4 y.toNat ++ ['-'] ++ padStr 2 m.toNat ++ ['-'] ++ padStr 2 d.toNat

/-- text.rs 143-155 `format_time`. -/
def formatTime (h : UInt32) (m s : UInt8) (us : UInt32) : Str :=
  padStr 2 h.toNat ++ [':'] ++ padStr 2 m.toNat ++ [':'] ++ padStr 2 s.toNat ++
    (if us ≠ 0 then ['.'] ++ padStr 6 us.toNat else [])

/-- text.rs 133-200 `Display for Value`; `days * 24 + hours` is checked `u32` arithmetic. -/
def display (ff : FloatFmt) : Value → Out Unit Str
  | .null => .ok ['N', 'U', 'L', 'L']
  | .tiny x => .ok (intStr x.toInt)
  | .short x => .ok (intStr x.toInt)
  | .int x => .ok (intStr x.toInt)
  | .long x => .ok (intStr x.toInt)
  | .utiny x => .ok (decStr x.toNat)
  | .ushort x => .ok (decStr x.toNat)
  | .uint x => .ok (decStr x.toNat)
  | .ulong x => .ok (decStr x.toNat)
  | .float x => .ok (ff.f32 x)
  | .double x => .ok (ff.f64 x)
  | .bytes x => .ok (['0', 'x'] ++ hexEncode x)
  | .date y m d => .ok (['"'] ++ formatDate y m d ++ ['"'])
  | .time neg days h m s us =>
    if days.toNat * 24 + h.toNat < 2 ^ 32 then
      .ok (['"'] ++ (if neg then ['-'] else []) ++
        formatTime (UInt32.ofNat (days.toNat * 24 + h.toNat)) m s us ++ ['"'])
    else .panic
  | .datetime y mo d h m s us =>
    .ok (['"'] ++ formatDate y mo d ++ [' '] ++ formatTime (UInt32.ofNat h.toNat) m s us ++ ['"'])

/-! ### Hex (src/types/hex.rs) -/

/-- crate `hex`, `FromHexError`. -/
inductive HexError where
  | oddLength
  | invalidChar (c : UInt8) (index : Nat)
  deriving DecidableEq, Repr

/-- crate `hex`, `val`. -/
def hexVal (b : UInt8) (i : Nat) : Out HexError Nat :=
  if 65 ≤ b.toNat ∧ b.toNat ≤ 70 then .ok (b.toNat - 55)
  else if 97 ≤ b.toNat ∧ b.toNat ≤ 102 then .ok (b.toNat - 87)
  else if 48 ≤ b.toNat ∧ b.toNat ≤ 57 then .ok (b.toNat - 48)
  else .err (.invalidChar b i)

/-- crate `hex`: the pairs of digits from index `i` on. -/
def hexPairs : Nat → Bytes → Out HexError Bytes
  | i, a :: b :: r => do
    let x ← hexVal a i
    let y ← hexVal b (i + 1)
    let bs ← hexPairs (i + 2) r
    pure (UInt8.ofNat (x * 16 + y) :: bs)
  | _, _ => .ok []

/-- crate `hex`, `decode`. -/
def hexDecode (bs : Bytes) : Out HexError Bytes :=
  if bs.length % 2 ≠ 0 then .err .oddLength else hexPairs 0 bs

/-- hex.rs 19-25 `Hex::try_from_hex`: `data[..2]` panics on fewer than two bytes. -/
def tryFromHex (data : Bytes) : Out HexError Bytes :=
  if data.length < 2 then .panic
  else if data.take 2 = [0x30, 0x78] ∨ data.take 2 = [0x30, 0x58] then hexDecode (data.drop 2)
  else hexDecode data

/-- hex.rs 28-37 `FromStr for Hex`, on the bytes of the string. -/
def hexFromStr (data : Bytes) : Out HexError Bytes :=
  if data.take 2 = [0x30, 0x78] ∨ data.take 2 = [0x30, 0x58] then hexDecode (data.drop 2)
  else hexDecode data

/-- hex.rs 82-87 `Display for Hex`. -/
def hexDisplay (bs : Bytes) : Str := ['0', 'x'] ++ hexEncode bs

end Verif

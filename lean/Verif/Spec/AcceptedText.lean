import Verif.Spec.Accepted
import Verif.Spec.Text

/-!
# Spec: the texts the client accepts as values

Wider than what a server prints (`Spec.TextForm`): leading zeros and a plus sign, minutes and seconds up to 99, a
single byte of any kind after the seconds, any byte between date and time, and in a DATETIME hours beyond 24, of which
whole days are dropped.
-/

namespace Verif.Spec

/-- `n` written in decimal digits, possibly with leading zeros. -/
def Numeral (bs : Bytes) (n : Nat) : Prop :=
  bs ≠ [] ∧ (∀ b ∈ bs, 48 ≤ b.toNat ∧ b.toNat ≤ 57) ∧ n = bs.foldl (fun acc b => 10 * acc + (b.toNat - 48)) 0

/-- an integer with an optional sign. -/
def SignedNumeral (bs : Bytes) (v : Int) : Prop :=
  ∃ n : Nat, (v = n ∧ (Numeral bs n ∨ ∃ r, bs = 0x2B :: r ∧ Numeral r n)) ∨
    (v = -(n : Int) ∧ ∃ r, bs = 0x2D :: r ∧ Numeral r n)

/-- what follows the seconds.  The last case needs more than 4 GiB of digits: they are counted modulo 2^32. -/
inductive Fraction : Bytes → Nat → Prop
  | none : Fraction [] 0
  | any (b : UInt8) : Fraction [b] 0
  | digits (f : Bytes) (n : Nat) : Numeral f n → f.length ≤ 6 → Fraction (0x2E :: f) (n * 10 ^ (6 - f.length))
  | wrapped (f : Bytes) (n k : Nat) : Numeral f n → 2 ^ 32 ≤ f.length → k = f.length % 2 ^ 32 → k ≤ 6 →
      n * 10 ^ (6 - k) < 2 ^ 32 → Fraction (0x2E :: f) (n * 10 ^ (6 - k))

/-- hours, minutes, seconds and microseconds. -/
def Clock (bs : Bytes) (h m s us : Nat) : Prop :=
  ∃ hd md sd f, Numeral hd h ∧ h < 2 ^ 32 ∧ md.length = 2 ∧ Numeral md m ∧ sd.length = 2 ∧ Numeral sd s ∧
    Fraction f us ∧ bs = hd ++ [0x3A] ++ md ++ [0x3A] ++ sd ++ f

/-- year, month and day. -/
def Day (bs : Bytes) (y m d : Nat) : Prop :=
  ∃ yd md dd, yd.length = 4 ∧ Numeral yd y ∧ md.length = 2 ∧ Numeral md m ∧ dd.length = 2 ∧ Numeral dd d ∧
    bs = yd ++ [0x2D] ++ md ++ [0x2D] ++ dd

/-- the text `bs` is accepted as the value in a column of the given type. -/
def TextValue (fp : FloatParse) (code : Nat) (unsigned : Bool) (bs : Bytes) (d : Value) : Prop :=
  match d with
  | .null => False
  | .utiny x => unsigned = true ∧ code = 1 ∧ Numeral bs x.toNat
  | .ushort x => unsigned = true ∧ (code = 2 ∨ code = 13) ∧ Numeral bs x.toNat
  | .uint x => unsigned = true ∧ (code = 3 ∨ code = 9) ∧ Numeral bs x.toNat
  | .ulong x => unsigned = true ∧ code = 8 ∧ Numeral bs x.toNat
  | .tiny x => unsigned = false ∧ code = 1 ∧ SignedNumeral bs x.toInt
  | .short x => unsigned = false ∧ (code = 2 ∨ code = 13) ∧ SignedNumeral bs x.toInt
  | .int x => unsigned = false ∧ (code = 3 ∨ code = 9) ∧ SignedNumeral bs x.toInt
  | .long x => unsigned = false ∧ code = 8 ∧ SignedNumeral bs x.toInt
  | .float b => code = 4 ∧ ∃ s, bs = utf8 s ∧ fp.f32 s = some b
  | .double b => code = 5 ∧ ∃ s, bs = utf8 s ∧ fp.f64 s = some b
  | .bytes b => isStringType code = true ∧ code ≠ 251 ∧ bs = b
  | .date y m d => code = 10 ∧ Day bs y.toNat m.toNat d.toNat
  | .datetime y mo d h m s us => (code = 7 ∨ code = 12) ∧ h.toNat < 24 ∧ 19 ≤ bs.length ∧
      ∃ day sep clock days, Day day y.toNat mo.toNat d.toNat ∧
        Clock clock (days * 24 + h.toNat) m.toNat s.toNat us.toNat ∧ bs = day ++ [sep] ++ clock
  | .time neg days h m s us => code = 11 ∧ h.toNat < 24 ∧
      ∃ clock, Clock clock (days.toNat * 24 + h.toNat) m.toNat s.toNat us.toNat ∧
        bs = (if neg then [0x2D] else []) ++ clock

/-- a clock with more than six digits after the point, which still fit into 32 bits (and none of the `wrapped`
fractions). -/
def LongFraction (bs : Bytes) : Prop :=
  ∃ hd md sd r h m s n, Numeral hd h ∧ h < 2 ^ 32 ∧ md.length = 2 ∧ Numeral md m ∧ sd.length = 2 ∧
    Numeral sd s ∧ Numeral r n ∧ n < 2 ^ 32 ∧ 6 < r.length ∧
    (6 < r.length % 2 ^ 32 ∨ 2 ^ 32 ≤ n * 10 ^ (6 - r.length % 2 ^ 32)) ∧
    bs = hd ++ [0x3A] ++ md ++ [0x3A] ++ sd ++ 0x2E :: r

/-- the texts whose decoding is cut off by a panic: all of a type without decoder, and long fractions. -/
def TextPanics (code : Nat) (bs : Bytes) : Prop :=
  (code ∈ [6, 14, 17, 18, 19, 20, 243, 251]) ∨
  (code = 11 ∧ ∃ clock, LongFraction clock ∧ (bs = clock ∨ bs = 0x2D :: clock)) ∨
  ((code = 7 ∨ code = 12) ∧ ∃ day sep clock y m d, Day day y m d ∧ LongFraction clock ∧ bs = day ++ [sep] ++ clock)

/-- a row of texts: a NULL is the byte 0xFB. -/
inductive TextCells (fp : FloatParse) : List (Nat × Bool) → List Value → Bytes → Prop
  | nil : TextCells fp [] [] []
  | null {c u ts vs bs} : TextCells fp ts vs bs → TextCells fp ((c, u) :: ts) (.null :: vs) (0xFB :: bs)
  | cell {c u ts v vs l txt bs} : TextValue fp c u txt v → IntForm txt.length l → l ≠ [0xFB] →
      TextCells fp ts vs bs → TextCells fp ((c, u) :: ts) (v :: vs) (l ++ txt ++ bs)

end Verif.Spec

import Verif.Spec.Value
import Verif.Model.Text

/-!
# Spec: values in the text protocol

What a server prints.  The only thing taken from the model is the pair of functions for parsing
floating point texts (not modelled, any functions).
-/

namespace Verif.Spec

/-- decimal numeral. -/
def dec (n : Nat) : Bytes :=
  if n < 10 then [UInt8.ofNat (48 + n)] else dec (n / 10) ++ [UInt8.ofNat (48 + n % 10)]

/-- decimal numeral with at least `k` digits. -/
def pad (k n : Nat) : Bytes := List.replicate (k - (dec n).length) 48 ++ dec n

/-- an integer, with `z` leading zeros (ZEROFILL, YEAR). -/
def textInt (z : Nat) (v : Int) : Bytes :=
  (if v < 0 then [0x2D] else []) ++ List.replicate z 48 ++ dec v.natAbs

/-- `YYYY-MM-DD` -/
def textDate (y m d : Nat) : Bytes := pad 4 y ++ [0x2D] ++ pad 2 m ++ [0x2D] ++ pad 2 d

/-- the fraction with `k` digits, nothing for `k = 0`. -/
def textFrac (k micro : Nat) : Bytes :=
  if k = 0 then [] else [0x2E] ++ pad k (micro / 10 ^ (6 - k))

/-- `HH:MM:SS[.f…]`; hours may have more than two digits. -/
def textClock (h m s k micro : Nat) : Bytes :=
  pad 2 h ++ [0x3A] ++ pad 2 m ++ [0x3A] ++ pad 2 s ++ textFrac k micro

/-- `[-]HH:MM:SS[.f…]` -/
def textTime (neg : Bool) (h m s k micro : Nat) : Bytes :=
  (if neg then [0x2D] else []) ++ textClock h m s k micro

/-- `YYYY-MM-DD HH:MM:SS[.f…]` -/
def textDatetime (y mo d h m s k micro : Nat) : Bytes :=
  textDate y mo d ++ [0x20] ++ textClock h m s k micro

/-- number of bytes of an integer column type. -/
def intWidth (code : Nat) : Option Nat :=
  if code = 1 then some 1
  else if code = 2 ∨ code = 13 then some 2
  else if code = 3 ∨ code = 9 then some 4
  else if code = 8 then some 8
  else none

/-- the range of a `w`-byte integer. -/
def inRange (w : Nat) (unsigned : Bool) (v : Int) : Prop :=
  if unsigned then 0 ≤ v ∧ v < 2 ^ (8 * w) else -(2 ^ (8 * w - 1)) ≤ v ∧ v < 2 ^ (8 * w - 1)

/-- `k` fraction digits can show `micro` exactly. -/
def fracOk (k micro : Nat) : Prop := k ≤ 6 ∧ micro < 10 ^ 6 ∧ 10 ^ (6 - k) ∣ micro

/-- `txt` is a text a server sends for the value `d` in a column of the given type. -/
def TextForm (fp : FloatParse) (code : Nat) (unsigned : Bool) (d : Datum) (txt : Bytes) : Prop :=
  match d with
  | .null => False
  | .int w u v => u = unsigned ∧ intWidth code = some w ∧ inRange w u v ∧ ∃ z, txt = textInt z v
  | .float bits => code = 4 ∧ ∃ s b, txt = utf8 s ∧ fp.f32 s = some b ∧ b.toNat = bits
  | .double bits => code = 5 ∧ ∃ s b, txt = utf8 s ∧ fp.f64 s = some b ∧ b.toNat = bits
  | .str b => isStringType code = true ∧ code ≠ 251 ∧ txt = b
  | .date y m d => code = 10 ∧ y < 10000 ∧ m < 100 ∧ d < 100 ∧ txt = textDate y m d
  | .datetime y mo d h m s us => (code = 7 ∨ code = 12) ∧ y < 10000 ∧ mo < 100 ∧ d < 100 ∧
      h < 24 ∧ m < 100 ∧ s < 100 ∧ ∃ k, fracOk k us ∧ txt = textDatetime y mo d h m s k us
  | .time neg days h m s us => code = 11 ∧ h < 24 ∧ days * 24 + h < 2 ^ 32 ∧ m < 100 ∧ s < 100 ∧
      ∃ k sign, fracOk k us ∧ .time neg days h m s us = mkTime sign days h m s us ∧
        txt = textTime sign (days * 24 + h) m s k us

/-- a text row: a NULL is the byte 0xFB, everything else a `string<lenenc>`. -/
inductive TextRow (fp : FloatParse) : List (Nat × Bool) → List Datum → Bytes → Prop
  | nil : TextRow fp [] [] []
  | null {c u ts ds bs} : TextRow fp ts ds bs → TextRow fp ((c, u) :: ts) (.null :: ds) (0xFB :: bs)
  | cell {c u ts d ds txt bs} : TextForm fp c u d txt → txt.length < 2 ^ 64 → TextRow fp ts ds bs →
      TextRow fp ((c, u) :: ts) (d :: ds) (lenencStr txt ++ bs)

end Verif.Spec

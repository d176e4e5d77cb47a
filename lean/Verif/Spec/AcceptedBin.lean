import Verif.Spec.Accepted
import Verif.Spec.Value

/-!
# Spec: the bytes the client accepts as binary values

Wider than what a server sends (`Spec.readBin`): a date or time may announce any length; what is read is what fits the
documented lengths, but all of the announced bytes have to be there. Any sign byte except 1 means positive.
-/

namespace Verif.Spec

/-- little-endian two's complement. -/
def leInt (k : Nat) (v : Int) : Bytes := le k (v % 256 ^ k).toNat

/-- the bytes `b`, with `rest` behind them, are accepted as the value in a column of the given type. -/
def BinValue (code : Nat) (unsigned : Bool) (v : Value) (b rest : Bytes) : Prop :=
  match v with
  | .null => code = 6 ∧ b = []
  | .utiny x => unsigned = true ∧ code = 1 ∧ b = le 1 x.toNat
  | .ushort x => unsigned = true ∧ (code = 2 ∨ code = 13) ∧ b = le 2 x.toNat
  | .uint x => unsigned = true ∧ (code = 3 ∨ code = 9) ∧ b = le 4 x.toNat
  | .ulong x => unsigned = true ∧ code = 8 ∧ b = le 8 x.toNat
  | .tiny x => unsigned = false ∧ code = 1 ∧ b = leInt 1 x.toInt
  | .short x => unsigned = false ∧ (code = 2 ∨ code = 13) ∧ b = leInt 2 x.toInt
  | .int x => unsigned = false ∧ (code = 3 ∨ code = 9) ∧ b = leInt 4 x.toInt
  | .long x => unsigned = false ∧ code = 8 ∧ b = leInt 8 x.toInt
  | .float x => code = 4 ∧ b = le 4 x.toNat
  | .double x => code = 5 ∧ b = le 8 x.toNat
  | .bytes x => isStringType code = true ∧ ∃ l, IntForm x.length l ∧ b = l ++ x
  | .date y m d => code = 10 ∧ ∃ len : UInt8, len.toNat ≤ (b.length - 1) + rest.length ∧
      ((len.toNat < 4 ∧ b = [len] ∧ y = 0 ∧ m = 0 ∧ d = 0) ∨ (4 ≤ len.toNat ∧ b = len :: le 2 y.toNat ++ [m, d]))
  | .datetime y mo d h m s us => (code = 7 ∨ code = 12) ∧ ∃ len : UInt8,
      len.toNat ≤ (b.length - 1) + rest.length ∧
      ((len.toNat < 4 ∧ b = [len] ∧ y = 0 ∧ mo = 0 ∧ d = 0 ∧ h = 0 ∧ m = 0 ∧ s = 0 ∧ us = 0) ∨
       (4 ≤ len.toNat ∧ len.toNat < 7 ∧ b = len :: le 2 y.toNat ++ [mo, d] ∧ h = 0 ∧ m = 0 ∧ s = 0 ∧ us = 0) ∨
       (7 ≤ len.toNat ∧ len.toNat ≠ 11 ∧ b = len :: le 2 y.toNat ++ [mo, d, h, m, s] ∧ us = 0) ∨
       (len.toNat = 11 ∧ b = len :: le 2 y.toNat ++ [mo, d, h, m, s] ++ le 4 us.toNat))
  | .time neg days h m s us => code = 11 ∧ ∃ len : UInt8,
      len.toNat ≤ (b.length - 1) + rest.length ∧
      ((len.toNat < 8 ∧ b = [len] ∧ neg = false ∧ days = 0 ∧ h = 0 ∧ m = 0 ∧ s = 0 ∧ us = 0) ∨
       (8 ≤ len.toNat ∧ len.toNat ≠ 12 ∧ us = 0 ∧
         ∃ g, (neg = true ↔ g = (1 : UInt8)) ∧ b = [len, g] ++ le 4 days.toNat ++ [h, m, s]) ∨
       (len.toNat = 12 ∧
         ∃ g, (neg = true ↔ g = (1 : UInt8)) ∧ b = [len, g] ++ le 4 days.toNat ++ [h, m, s] ++ le 4 us.toNat))

/-- the values from column `i` on, the NULL bits being in `bm`; whatever follows is ignored. -/
inductive BinCells (bm : Bytes) : Nat → List (Nat × Bool) → List Value → Bytes → Prop
  | nil {i rest} : BinCells bm i [] [] rest
  | null {i c u ts vs s} : bitSet bm (i + 2) = true → BinCells bm (i + 1) ts vs s →
      BinCells bm i ((c, u) :: ts) (.null :: vs) s
  | cell {i c u ts v vs b s} : bitSet bm (i + 2) = false → BinValue c u v b s → BinCells bm (i + 1) ts vs s →
      BinCells bm i ((c, u) :: ts) (v :: vs) (b ++ s)

end Verif.Spec

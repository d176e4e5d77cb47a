import Mathlib.Data.List.Forall2
import Verif.Spec.LoginStream

/-!
# Spec: from the login to a connection

What follows a login: unless the user has set a limit for packets, the server is asked for its own. The server is
arbitrary.
-/

namespace Verif.Spec

def limitName : Str := "@@max_allowed_packet".toList

/-- the question. -/
def question : Bytes := 0x03 :: utf8 ("select ".toList ++ limitName)

/-- what a row says about the limit: the cell in the first column of that name. -/
inductive Limit (names : List Str) (vs : List Value) : Option Nat → Prop
  | absent : limitName ∉ names → Limit names vs none
  | present {i : Nat} {n : UInt64} : names[i]? = some limitName → (∀ j < i, names[j]? ≠ some limitName) →
      vs[i]? = some (Value.ulong n) → Limit names vs (some n.toNat)

/-- the columns are announced and defined by these packets. -/
def Defines (head : Bytes) (defs : List Bytes) (cols : List Column) : Prop :=
  CountForm defs.length head ∧
  List.Forall₂ (fun p col => ∃ d, ColumnForm p d ∧ col = Column.ofDef d) defs cols

/-- the type codes of columns and whether they are unsigned. -/
def wireTypes (cols : List Column) : List (Nat × Bool) :=
  cols.map fun col => (col.type.toByte.toNat, hasFlag16 col.flags ColFlag.UNSIGNED)

/-- the question is asked on `c` and answered; `c'` is `c` after that. An OK packet and a result without rows leave the
limit as it is; of the rows only the first is read. -/
inductive Asks (fp : FloatParse) (c : Conn) : Conn → Prop
  | ok {c1 c' p a l s w m} : Wrote c question c1 → Took c1 [p] c' → OkForm p a l s w m → Asks fp c c'
  | none {c1 c2 head defs cols p s w m} : Wrote c question c1 → Took c1 (head :: defs ++ [p]) c2 →
      Defines head defs cols → IsEnd c.data.capabilities p → EndForm p s w m →
      Asks fp c { c2 with pendingResult := false }
  | row {c1 c2 head defs cols p vs lim} : Wrote c question c1 → Took c1 (head :: defs ++ [p]) c2 →
      Defines head defs cols → TextRowForm fp c.data.capabilities (wireTypes cols) p vs →
      Limit (cols.map (·.name)) vs lim →
      Asks fp c { c2 with
        pendingResult := true
        data := { c2.data with maxAllowedPacket := lim.getD c2.data.maxAllowedPacket } }

/-- a row at which the client gives up: empty, or with a cell it cannot take. -/
def BadRow (fp : FloatParse) (caps : UInt32) (cols : List Column) (p : Bytes) : Prop :=
  p = [] ∨ (¬ IsEnd caps p ∧
    ∃ before col after vs b l txt rest, cols = before ++ col :: after ∧
      TextCells fp (wireTypes before) vs b ∧ IntForm txt.length l ∧ l ≠ [0xFB] ∧
      TextPanics col.type.toByte.toNat txt ∧ p = b ++ l ++ txt ++ rest)

/-- the client gives up at the answer. -/
inductive AnswerPanics (fp : FloatParse) (c : Conn) : Conn → Prop
  | head {c1 c'} : Wrote c question c1 → HeadPanics c1 c' → AnswerPanics fp c c'
  | row {c1 c2 head defs cols p} : Wrote c question c1 → Took c1 (head :: defs ++ [p]) c2 →
      Defines head defs cols → BadRow fp c.data.capabilities cols p → AnswerPanics fp c { c2 with pendingResult := true }

end Verif.Spec

import Verif.Spec.Relational

/-!
# Spec: a model's query with a condition

The rows of the joined tables, and the statement that looks for the value of one column.
-/

namespace Verif.Spec

/-- the combined rows a select statement picks its columns from. -/
def Database.joined (db : Database) (s : Select) : List Joined :=
  (db.rows s.table).flatMap fun r => db.join s.joins fun _ => r

/-- the columns of a combined row. -/
def Select.pick (s : Select) (e : Joined) : List Datum := s.items.map fun i => e i.1 i.2

/-- `… where `a`.`c` = ?`. -/
def parseLookup (ts : List Tok) : Option (Select × Str × Str) :=
  match ts.drop (ts.length - 6) with
  | [.word w, .name a, .punct '.', .name c, .punct '=', .punct '?'] =>
    if w = "where".toList then (parseSelect (ts.take (ts.length - 6))).map fun q => (q, a, c) else none
  | _ => none

/-- the combined rows with this value in the column. -/
def Database.lookup (db : Database) (s : Select) (a c : Str) (d : Datum) : List Joined :=
  (db.joined s).filter fun e => db.eq (e a c) d

end Verif.Spec

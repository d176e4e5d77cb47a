import Verif.Spec.Orm
import Verif.Spec.Value

/-!
# Spec: the rows a select statement over joined tables denotes

Tables are lists of rows, a row gives every column a value.  An inner join keeps the combinations
whose columns compare as equal; how the server compares values (collations, numbers of different
width, NULL) is arbitrary.

Beside it, what the user of a model expects: a row of the model's table, with each reference replaced
by the row of the other table whose primary key is the value of the column.
-/

namespace Verif.Spec

/-- a row of a table. -/
abbrev Rec := Str → Datum

/-- the tables, and the comparison `=`. -/
structure Database where
  rows : Str → List Rec
  eq : Datum → Datum → Bool

/-- rows combined by joins: a row per alias. -/
abbrev Joined := Str → Rec

def Joined.set (e : Joined) (a : Str) (r : Rec) : Joined := fun b => if b = a then r else e b

/-- all combinations for the joins, from left to right. -/
def Database.join (db : Database) : List Join → Joined → List Joined
  | [], e => [e]
  | j :: js, e =>
    ((db.rows j.table).filter fun r => db.eq (e j.parent j.field) (r j.key)).flatMap fun r =>
      db.join js (e.set j.alias r)

/-- the rows of the answer, in some order. -/
def Database.select (db : Database) (s : Select) : List (List Datum) :=
  (db.rows s.table).flatMap fun r =>
    (db.join s.joins fun _ => r).map fun e => s.items.map fun i => e i.1 i.2

/-- aliases are introduced once and before they are used. -/
def joinsScoped : List Str → List Join → Option (List Str)
  | known, [] => some known
  | known, j :: js =>
    if j.parent ∈ known ∧ j.alias ∉ known then joinsScoped (j.alias :: known) js else none

/-- a statement the server does not reject because of its aliases. -/
def Select.Scoped (s : Select) : Prop :=
  ∃ known, joinsScoped [s.table] s.joins = some known ∧ ∀ i ∈ s.items, i.1 ∈ known

/-! ### models -/

/-- the model type of a reference field. -/
def refModel (f : Str) : RefDefs → Option ModelDef
  | .nil => none
  | .cons g m r => if g = f then some m else refModel f r

/-- the row that the references along the path lead to. -/
def Database.follow (db : Database) : ModelDef → Rec → List Str → Option Rec
  | _, r, [] => some r
  | m, r, f :: p =>
    match refModel f m.refs with
    | none => none
    | some m' =>
      match (db.rows m'.table).find? fun r' => db.eq (r f) (r' m'.primary) with
      | none => none
      | some r' => db.follow m' r' p

/-- all references of the row lead somewhere. -/
def Database.Complete (db : Database) (m : ModelDef) (r : Rec) : Prop :=
  ∀ p c, HasField m p c → ∃ r', db.follow m r p = some r'

mutual
/-- the primary keys of all referenced tables are keys: no value equals those of two rows. -/
def Database.Keyed (db : Database) : ModelDef → Prop
  | .mk _ _ _ _ refs => db.KeyedRefs refs

def Database.KeyedRefs (db : Database) : RefDefs → Prop
  | .nil => True
  | .cons _ m r =>
    (db.rows m.table).Pairwise (fun a b => ∀ x, ¬(db.eq x (a m.primary) = true ∧ db.eq x (b m.primary) = true)) ∧
    db.Keyed m ∧ db.KeyedRefs r
end

end Verif.Spec

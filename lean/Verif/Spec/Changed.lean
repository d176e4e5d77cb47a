import Verif.Spec.RoundTrip

/-!
# Spec: what an update is to change

An update of a model gives new values for some fields, and for each reference nothing, a key, or a
whole model to be inserted.
-/

namespace Verif.Spec

/-- what is to happen to the references of a model. -/
inductive RefUpdates where
  | nil
  | keep (field : Str) (rest : RefUpdates)
  | point (field : Str) (key : Value) (rest : RefUpdates)
  | insert (field : Str) (model : ModelVal) (rest : RefUpdates)

/-- as the connector's type. -/
def RefUpdates.active : RefUpdates → ActiveRefs
  | nil => .nil
  | keep f r => .unset f r.active
  | point f v r => .set f v r.active
  | insert f mv r => .insert f mv.intoActive r.active

/-- the references are those of the type. -/
inductive RefUpdates.Fit : RefUpdates → RefDefs → Prop
  | nil : Fit .nil .nil
  | keep {f m r d} : Fit r d → Fit (.keep f r) (.cons f m d)
  | point {f v m r d} : Fit r d → Fit (.point f v r) (.cons f m d)
  | insert {f mv r d} : Fit r d → Fit (.insert f mv r) (.cons f (shape mv) d)

inductive RefUpdates.Keeps : RefUpdates → Str → Prop
  | here {f r} : Keeps (.keep f r) f
  | keep {f g r} : Keeps r f → Keeps (.keep g r) f
  | point {f g v r} : Keeps r f → Keeps (.point g v r) f
  | insert {f g mv r} : Keeps r f → Keeps (.insert g mv r) f

inductive RefUpdates.Points : RefUpdates → Str → Value → Prop
  | here {f v r} : Points (.point f v r) f v
  | keep {f v g r} : Points r f v → Points (.keep g r) f v
  | point {f v g w r} : Points r f v → Points (.point g w r) f v
  | insert {f v g mv r} : Points r f v → Points (.insert g mv r) f v

inductive RefUpdates.Inserts : RefUpdates → Str → ModelVal → Prop
  | here {f mv r} : Inserts (.insert f mv r) f mv
  | keep {f mv g r} : Inserts r f mv → Inserts (.keep g r) f mv
  | point {f mv g w r} : Inserts r f mv → Inserts (.point g w r) f mv
  | insert {f mv g mv' r} : Inserts r f mv → Inserts (.insert g mv' r) f mv

mutual
/-- the tables of a model and of all models it refers to. -/
def tablesOf : ModelDef → List Str
  | .mk t _ _ _ refs => t :: refTables refs

def refTables : RefDefs → List Str
  | .nil => []
  | .cons _ m r => tablesOf m ++ refTables r
end

/-- the value that the model of the row `r` has in the column `c` along the references `path`. -/
def Database.Reads (db : Database) (m : ModelDef) (r : Rec) (path : List Str) (c : Str) (d : Datum) : Prop :=
  ∃ r', db.follow m r path = some r' ∧ r' c = d

/-- the row of the model's table with this key. -/
def Database.Row (db : Database) (m : ModelDef) (key : Datum) (r : Rec) : Prop :=
  (db.rows m.table).find? (fun r' => db.eq key (r' m.primary)) = some r

/-- What a field is to be after an update of the row `r`; `db` are the tables before it. -/
inductive Becomes (db : Database) (m : ModelDef) (plain : List (Str × Option (Out SerializeError Value)))
    (structs : List (Str × Option (List (Str × Out SerializeError Value)))) (refs : RefUpdates) (r : Rec) :
    List Str → Str → Datum → Prop
  | plain {c v} : (c, some (.ok v)) ∈ plain → Becomes db m plain structs refs r [] c (meaning v)
  | member {s ms x v} : (s, some ms) ∈ structs → (x, .ok v) ∈ ms →
      Becomes db m plain structs refs r [] (s ++ '_' :: x) (meaning v)
  | same {c} : c ∉ setNames (.mk m.table none plain structs refs.active) →
      Becomes db m plain structs refs r [] c (r c)
  | kept {f path c d} : refs.Keeps f → db.Reads m r (f :: path) c d →
      Becomes db m plain structs refs r (f :: path) c d
  | pointed {f v m' r' path c d} : refs.Points f v → refModel f m.refs = some m' →
      db.Row m' (meaning v) r' → db.Reads m' r' path c d → Becomes db m plain structs refs r (f :: path) c d
  | inserted {f mv path c v} : refs.Inserts f mv → Holds mv path c (some v) →
      Becomes db m plain structs refs r (f :: path) c (meaning v)

end Verif.Spec

import Verif.Spec.SqlServer

/-!
# Spec: the values a model holds

Used for writing a model to a server with tables and reading it back.
-/

namespace Verif.Spec

mutual
/-- the type of a model value. -/
def shape : ModelVal → ModelDef
  | .mk t p _ plain structs refs =>
    .mk t p (plain.map (·.1)) (structs.map fun s => (s.1, s.2.map (·.1))) (shapeRefs refs)

def shapeRefs : RefVals → RefDefs
  | .nil => .nil
  | .cons f m r => .cons f (shape m) (shapeRefs r)
end

mutual
/-- along the references `path`, the column `c` holds this value; `none`: it is a key that the server
generates. -/
inductive Holds : ModelVal → List Str → Str → Option Value → Prop
  | plain {t p ai plain structs refs c v} : (c, .ok v) ∈ plain → ¬(ai = true ∧ c = p) →
      Holds (.mk t p ai plain structs refs) [] c (some v)
  | key {t p plain structs refs} : p ∈ plain.map (·.1) → Holds (.mk t p true plain structs refs) [] p none
  | member {t p ai plain structs refs s ms x v} : (s, ms) ∈ structs → (x, .ok v) ∈ ms →
      Holds (.mk t p ai plain structs refs) [] (s ++ '_' :: x) (some v)
  | sub {t p ai plain structs refs path c o} : HoldsRef refs path c o →
      Holds (.mk t p ai plain structs refs) path c o

inductive HoldsRef : RefVals → List Str → Str → Option Value → Prop
  | here {f m r path c o} : Holds m path c o → HoldsRef (.cons f m r) (f :: path) c o
  | there {f m r path c o} : HoldsRef r path c o → HoldsRef (.cons f m r) path c o
end

mutual
/-- The tables' keys are those of the models.  An auto increment key is the auto increment column of
the table, it is not another field's column, and the server compares the 64 bit number it reported with
the value it stored as equal.  Any other key is given; it equals itself (is not NULL); and should the
table have an auto increment column, a value the server keeps is given for it. -/
def KeysFit (S : SqlServer) : ModelVal → Prop
  | .mk t p ai plain structs refs =>
    (if ai = true then
      S.auto t = some p ∧ p ∉ setNames (ModelVal.mk t p ai plain structs refs).intoActive ∧
        ∀ id, S.eq (meaning (.ulong id)) (S.keyDatum t id) = true
     else
      (∃ v, (p, .ok v) ∈ plain) ∧ (∀ v, (p, .ok v) ∈ plain → S.eq (meaning v) (meaning v) = true) ∧
        ∀ k, S.auto t = some k → ∃ w, (k, .ok w) ∈ plain ∧ S.blank (meaning w) = false) ∧
    KeysFitRefs S refs

def KeysFitRefs (S : SqlServer) : RefVals → Prop
  | .nil => True
  | .cons _ m r => KeysFit S m ∧ KeysFitRefs S r
end

/-- the row `r` holds the value in the column `c`. -/
def HoldsRow (S : SqlServer) (r : Rec) (c : Str) : Option Value → Prop
  | some v => r c = meaning v
  | none => ∃ t id, r c = S.keyDatum t id

/-- the tables as a database that can be queried. -/
def SqlServer.database (S : SqlServer) (rows : Tables) : Database := { rows := rows, eq := S.eq }

end Verif.Spec

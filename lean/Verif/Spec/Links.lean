import Verif.Spec.StoreMany
import Verif.Spec.RoundTrip

/-!
# Spec: references that lead to rows

A column of one table holds keys of another.  What programs must not do, so that every value of the
column is the key of a row.
-/

namespace Verif.Spec

/-- the column `field` of `table` holds values of the column `key` of `target`. -/
structure Link where
  table : Str
  field : Str
  target : Str
  key : Str
  deriving DecidableEq

namespace Link

variable (S : SqlServer) (l : Link)

/-- there is a row with this key. -/
def Leads (rows : Tables) (d : Datum) : Prop := ∃ r ∈ rows l.target, S.eq d (r l.key) = true

/-- every value leads to a row. -/
def Keeps (rows : Tables) : Prop := ∀ r ∈ rows l.table, l.Leads S rows (r l.field)

/-- a model of the target, whose key the client knows when it is stored: the server generates it, and compares the 64
bit number it reports with the value it stores as equal; or it is given, and equals itself, and the server keeps
what is given for the auto increment column, if there is one. -/
def Known : ActiveModel → Prop
  | .mk t p plain structs refs => t = l.target ∧ p = some l.key ∧
    ((S.auto t = some l.key ∧ l.key ∉ setNames (.mk t p plain structs refs) ∧
        ∀ id, S.eq (meaning (.ulong id)) (S.keyDatum t id) = true) ∨
      ((∃ v, (l.key, some (.ok v)) ∈ plain) ∧
        (∀ v, (l.key, some (.ok v)) ∈ plain → S.eq (meaning v) (meaning v) = true) ∧
        ∀ c, S.auto t = some c → (∃ w, (c, some (.ok w)) ∈ plain) ∧
          ∀ w, (c, some (.ok w)) ∈ plain → S.blank (meaning w) = false))

/-- the reference is given, with the key of a row of `old` or with a model. -/
def Given (old : Tables) : ActiveRefs → Prop
  | .nil => False
  | .unset _ r => Given old r
  | .set f v r => if f = l.field then l.Leads S old (meaning v) else Given old r
  | .insert f m r => if f = l.field then l.Known S m else Given old r

/-- the reference is given like that, or not at all. -/
def Kept (old : Tables) : ActiveRefs → Prop
  | .nil => True
  | .unset _ r => Kept old r
  | .set f v r => if f = l.field then l.Leads S old (meaning v) else Kept old r
  | .insert f m r => if f = l.field then l.Known S m else Kept old r

/-- no other field of the model is stored in the column. -/
def Apart (plain : List (Str × Option (Out SerializeError Value)))
    (structs : List (Str × Option (List (Str × Out SerializeError Value)))) : Prop :=
  ∀ v, (l.field, v) ∉ setPlain plain ++ setStructs structs

mutual
/-- every model to be stored in the table comes with the reference. -/
def Fits (old : Tables) : ActiveModel → Prop
  | .mk t _ plain structs refs =>
    (t = l.table → S.auto t ≠ some l.field ∧ l.Apart plain structs ∧ l.Given S old refs) ∧ FitsRefs old refs

def FitsRefs (old : Tables) : ActiveRefs → Prop
  | .nil => True
  | .unset _ r => FitsRefs old r
  | .set _ _ r => FitsRefs old r
  | .insert _ m r => Fits old m ∧ FitsRefs old r
end

/-- an insert of such a model, or an update that leaves the reference or gives it, and does not change keys. -/
def FitsJob (old : Tables) : StoreJob → Prop
  | .insert m => l.Fits S old m
  | .update _ _ (.mk t p plain structs refs) =>
    (t = l.table → l.Apart plain structs ∧ l.Kept S old refs) ∧
    (t = l.target → l.key ∉ setNames (.mk t p plain structs refs)) ∧ l.FitsRefs S old refs

end Link

mutual
/-- the references of a model, and of the models it refers to. -/
def linksOf : ModelDef → List Link
  | .mk t _ _ _ refs => linksRefs t refs

def linksRefs (t : Str) : RefDefs → List Link
  | .nil => []
  | .cons f m r => ⟨t, f, m.table, m.primary⟩ :: linksOf m ++ linksRefs t r
end

end Verif.Spec

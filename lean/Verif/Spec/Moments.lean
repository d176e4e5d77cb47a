import Verif.Spec.StoreMany

/-!
# Spec: queries while programs insert

Rows appear one after the other; what a query is told are the tables between two of the statements.
-/

namespace Verif.Spec

mutual
/-- a model and all models that are given with it. -/
def parts : ModelVal → List ModelVal
  | .mk t p ai plain structs refs => .mk t p ai plain structs refs :: partsRefs refs

def partsRefs : RefVals → List ModelVal
  | .nil => []
  | .cons _ m r => parts m ++ partsRefs r
end

/-- among what happened, program `i` has finished these inserts, and was told these ids. -/
def Finished (i : Nat) (hist : List (Nat × StoreEvent)) (mvs : List ModelVal) (ids : List UInt64) : Prop :=
  ∃ h rest, eventsBy i hist = h ++ rest ∧ JobsDone (mvs.map fun mv => .insert mv.intoActive) h ids

end Verif.Spec

import Verif.Spec.RoundTrip

/-! # Spec: several models inserted one after the other -/

namespace Verif.Spec

/-- the rows that are inserted for these models, and the ids reported for them. -/
inductive InsertedAll : List ModelVal → List Row → List UInt64 → Prop
  | nil : InsertedAll [] [] []
  | cons {mv mvs log log' id ids} : Inserted mv.intoActive log id → InsertedAll mvs log' ids →
      InsertedAll (mv :: mvs) (log ++ log') (id :: ids)

/-- a model of the type `m` that a server can take. -/
structure Insertable (S : SqlServer) (m : ModelDef) (mv : ModelVal) : Prop where
  shape : shape mv = m
  keys : KeysFit S mv
  writable : Writable mv.intoActive
  distinct : allDistinct mv.intoActive

end Verif.Spec

import Verif.Model.Query

/-!
# Active models: insert and update

Mirrors `src/model/active_model/` and `derive(ActiveModel)` in `macros/src/lib.rs` for a tree of active
models.

A field is given with the outcome of its conversion to `Value` (C25 … C27), which may be an error for
dates.  The key of a model and of a reference is `Into<Value>`, which cannot fail.
-/

namespace Verif

mutual
/-- the struct generated by `derive(ActiveModel)`: table, name of the primary key, plain fields,
flattened structs and references, each set or not. -/
inductive ActiveModel where
  | mk (table : Str) (primary : Option Str)
      (plain : List (Str × Option (Out SerializeError Value)))
      (structs : List (Str × Option (List (Str × Out SerializeError Value))))
      (refs : ActiveRefs)

/-- active_reference.rs 7-11 `ActiveReference`, for each field of another model type. -/
inductive ActiveRefs where
  | nil
  | set (field : Str) (key : Value) (rest : ActiveRefs)
  | insert (field : Str) (model : ActiveModel) (rest : ActiveRefs)
  | unset (field : Str) (rest : ActiveRefs)
end

namespace ActiveModel

def table : ActiveModel → Str | mk t _ _ _ _ => t
def plain : ActiveModel → List (Str × Option (Out SerializeError Value)) | mk _ _ p _ _ => p
def structs : ActiveModel → List (Str × Option (List (Str × Out SerializeError Value))) | mk _ _ _ s _ => s
def refs : ActiveModel → ActiveRefs | mk _ _ _ _ r => r

end ActiveModel

/-- named_value.rs 7 `NamedValue`. -/
abbrev NamedValue := Str × Value

/-- named_value.rs 25-39 `into_insert`: the loop over the names, `i` the position. -/
def insertNames : Nat → List NamedValue → Str
  | _, [] => []
  | i, v :: vs => (if i ≠ 0 then ", ".toList else []) ++ "`".toList ++ v.1 ++ "`".toList ++ insertNames (i + 1) vs

/-- the loop over the placeholders, from position `i`, `n` to come. -/
def insertMarks : Nat → Nat → Str
  | _, 0 => []
  | i, n + 1 => (if i ≠ 0 then ", ".toList else []) ++ "?".toList ++ insertMarks (i + 1) n

/-- named_value.rs 18-42 `into_insert`. -/
def intoInsert (values : List NamedValue) (table : Str) : Str :=
  "insert into `".toList ++ table ++ "` (".toList ++ insertNames 0 values ++ ") values (".toList ++
    insertMarks 0 values.length ++ ")".toList

/-- named_value.rs 51-59. -/
def updateNames : Nat → List NamedValue → Str
  | _, [] => []
  | i, v :: vs => (if i ≠ 0 then ", ".toList else []) ++ "`".toList ++ v.1 ++ "` = ?".toList ++ updateNames (i + 1) vs

/-- named_value.rs 44-64 `into_update`. -/
def intoUpdate (values : List NamedValue) (table primary : Str) : Str :=
  "update `".toList ++ table ++ "` set ".toList ++ updateNames 0 values ++ " where `".toList ++ primary ++
    "` = ?".toList

/-- `?` on a conversion. -/
def liftS {α : Type} (x : Out SerializeError α) : M α := SM.ofOut (x.mapErr fun e => .protocol (.serialize e))

/-- active_value.rs 17-27 for the plain fields in order (macros/src/lib.rs 333). -/
def plainValues : List (Str × Option (Out SerializeError Value)) → M (List NamedValue)
  | [] => pure []
  | (_, none) :: fs => plainValues fs
  | (n, some x) :: fs => do
    let v ← liftS x
    let vs ← plainValues fs
    pure ((n, v) :: vs)

/-- macros/src/lib.rs 252: the fields of one struct. -/
def memberValues (field : Str) : List (Str × Out SerializeError Value) → M (List NamedValue)
  | [] => pure []
  | (n, x) :: fs => do
    let v ← liftS x
    let vs ← memberValues field fs
    pure ((field ++ '_' :: n, v) :: vs)

/-- macros/src/lib.rs 231-250. -/
def structValues : List (Str × Option (List (Str × Out SerializeError Value))) → M (List NamedValue)
  | [] => pure []
  | (_, none) :: fs => structValues fs
  | (f, some ms) :: fs => do
    let a ← memberValues f ms
    let b ← structValues fs
    pure (a ++ b)

/-- macros/src/lib.rs 282-290 `primary`: the key, if set. -/
def ActiveModel.primaryValue : ActiveModel → Option Value
  | .mk _ (some p) plain _ _ =>
    match plain.find? (·.1 = p) with
    | some (_, some (.ok v)) => some v
    | _ => none
  | .mk _ none _ _ _ => none

/-- active_model/mod.rs 27-29: prepare, execute, the id. -/
def executeInsert (table : Str) (values : List NamedValue) : M UInt64 := do
  let p ← prepareStatement (intoInsert values table)
  let ok ← p.execute (values.map (·.2))
  pure ok.lastInsertId

mutual
/-- active_model/mod.rs 22-30 `insert`, with macros/src/lib.rs 331-337 `into_values` inlined. -/
def ActiveModel.insert : ActiveModel → M UInt64
  | .mk t _ plain structs refs => do
    let a ← plainValues plain
    let b ← structValues structs
    let r ← refValues refs
    executeInsert t (a ++ b ++ r)

/-- active_reference.rs 14-30 `insert_named_value` for the references in order. -/
def refValues : ActiveRefs → M (List NamedValue)
  | .nil => pure []
  | .set f v r => do
    let vs ← refValues r
    pure ((f, v) :: vs)
  | .insert f m r => do
    let id ← m.insert
    let vs ← refValues r
    pure ((f, m.primaryValue.getD (.ulong id)) :: vs)
  | .unset _ r => refValues r
end

/-- macros/src/lib.rs 331-337 `into_values`. -/
def ActiveModel.intoValues : ActiveModel → M (List NamedValue)
  | .mk _ _ plain structs refs => do
    let a ← plainValues plain
    let b ← structValues structs
    let r ← refValues refs
    pure (a ++ b ++ r)

/-- update_model.rs 21-31 `update`; `primary` is `T::PRIMARY`. -/
def ActiveModel.update (id : Value) (primary : Str) (m : ActiveModel) : M Unit := do
  let values ← m.intoValues
  if values ≠ [] then do
    let p ← prepareStatement (intoUpdate values m.table primary)
    let _ ← p.execute (values.map (·.2) ++ [id])
    pure ()
  else pure ()

/-! ### from a model -/

mutual
/-- a value of a model type: key name, whether it is auto increment, fields. -/
inductive ModelVal where
  | mk (table primary : Str) (autoIncrement : Bool) (plain : List (Str × Out SerializeError Value))
      (structs : List (Str × List (Str × Out SerializeError Value))) (refs : RefVals)

inductive RefVals where
  | nil
  | cons (field : Str) (model : ModelVal) (rest : RefVals)
end

mutual
/-- macros/src/lib.rs 264-281, 347-354 `into_active_model`. -/
def ModelVal.intoActive : ModelVal → ActiveModel
  | .mk t p ai plain structs refs =>
    .mk t (some p) (plain.map fun f => (f.1, if ai ∧ f.1 = p then none else some f.2))
      (structs.map fun s => (s.1, some s.2)) (refsIntoActive refs)

def refsIntoActive : RefVals → ActiveRefs
  | .nil => .nil
  | .cons f m r => .insert f m.intoActive (refsIntoActive r)
end

end Verif

import Verif.Model.Narrow
import Verif.Model.Active
import Verif.Model.MigratorWire

/-!
# Models and migrations on targets with 32-bit addresses

The code of `Model/Active.lean` and `Model/MigratorWire.lean` compiled for a target with `usize` of 32 bits: it has no
conversion between widths of its own, the calls it makes are those of `Model/Narrow.lean`.
-/

namespace Verif.Narrow

/-- src/model/active_model/mod.rs 27-29. -/
def executeInsert (table : Str) (values : List NamedValue) : M UInt64 := do
  let p ← prepareStatement (intoInsert values table)
  let ok ← stmtExecute p (values.map (·.2))
  pure ok.lastInsertId

mutual
/-- active_model/mod.rs 22-30 `insert`, with macros/src/lib.rs 331-337 `into_values` inlined. -/
def insert : ActiveModel → M UInt64
  | .mk t _ plain structs refs => do
    let a ← plainValues plain
    let b ← structValues structs
    let r ← refValues refs
    executeInsert t (a ++ b ++ r)

/-- active_reference.rs 14-30 `insert_named_value` for the references in order. -/
def refValues : ActiveRefs → M (List NamedValue)
  | .nil => pure []
  | .set f v r => do
    let vs ← refValues r
    pure ((f, v) :: vs)
  | .insert f m r => do
    let id ← insert m
    let vs ← refValues r
    pure ((f, m.primaryValue.getD (.ulong id)) :: vs)
  | .unset _ r => refValues r
end

/-- macros/src/lib.rs 331-337 `into_values`. -/
def intoValues : ActiveModel → M (List NamedValue)
  | .mk _ _ plain structs refs => do
    let a ← plainValues plain
    let b ← structValues structs
    let r ← refValues refs
    pure (a ++ b ++ r)

/-- update_model.rs 21-31 `update`. -/
def update (id : Value) (primary : Str) (m : ActiveModel) : M Unit := do
  let values ← intoValues m
  if values ≠ [] then do
    let p ← prepareStatement (intoUpdate values m.table primary)
    let _ ← stmtExecute p (values.map (·.2) ++ [id])
    pure ()
  else pure ()

/-- src/migrator/migrator_inner.rs 45-62. -/
def loadLoop (fp : FloatParse) (ms : List MigList) : Nat → RSet → (Version → List Str) → M (Version → List Str)
  | 0, _, _ => SM.crash
  | fuel + 1, rs, applied => do
    let (rs', k?) ← next (textReader fp migrationOf) rs
    match k? with
    | none => pure applied
    | some k => if isKnown ms k then loadLoop fp ms fuel rs' (insertApplied applied k) else SM.crash

/-- migrator_inner.rs 39-62. -/
def loadTable (fp : FloatParse) (ms : List MigList) : M (Version → List Str) := do
  let rs ← query selectSql
  let c ← SM.get
  loadLoop fp ms (c.rx.length + 2) rs fun _ => []

/-- migrator_inner.rs 24-37. -/
def ensureTable (fp : FloatParse) : M Unit := do
  let rs ← query existsSql
  let (_, rows) ← collect (textReader fp mkPlain) rs
  if rows.isEmpty then do
    let _ ← executeQuery createSql
    pure ()
  else pure ()

/-- migrator_inner.rs 17-68 `new`. -/
def migratorOpen (debug : Bool) (fp : FloatParse) (ms : List MigList) : M (Version → List Str) := do
  if debug && !ordered ms then SM.crash
  else do
    ensureTable fp
    loadTable fp ms

/-- src/migrator/mod.rs 29, 41 and migrator_inner.rs 116, 136, 158; what is done with them (`MigEnv`) does not depend on
the target. -/
def wired (upSql downSql : MigKey → Str) : MigEnv MigWire Error where
  effect
    | .up k => onConn do
      let _ ← executeQuery (upSql k)
      pure ()
    | .down k => onConn do
      let _ ← executeQuery (downSql k)
      pure ()
    | .conn => pure ()
    | .insert k => onConn do
      let _ ← executeQuery (insertSql k)
      pure ()
    | .delete k => onConn do
      let _ ← executeQuery (deleteSql k)
      pure ()
  applied := MigWire.applied
  setApplied a s := { s with applied := a }

end Verif.Narrow

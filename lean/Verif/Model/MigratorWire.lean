import Verif.Model.Migrator
import Verif.Model.Query
import Verif.Model.Convert

/-!
# The migrator on a connection

Mirrors `src/migrator/model.rs`, `Migrator::new` (src/migrator/migrator_inner.rs 17-68) and
`simple_migration!` (src/migrator/mod.rs 10-45), with the code of `Model/Migrator.lean` for the rest.

The pool hands out one and the same connection (a pool of one connection, not used by anybody else;
several: `Model/MigPool.lean`), so `pool.get()` always succeeds; that creating a connection may fail is part of the effects of
`Model/Migrator.lean`.  The `debug_assert!` in `new` is there or not (`debug`).
-/

namespace Verif

/-! ### the rows of `migrations` -/

/-- model.rs 54-60 `MigrationMapping`. -/
structure MigMapping where
  version0 : Option Nat
  version1 : Option Nat
  version2 : Option Nat
  name : Option Nat
  deriving DecidableEq, Repr

/-- model.rs 62-72 `set_mapping_inner` (by `org_name`, the table does not matter). -/
def MigMapping.set (mp : MigMapping) (col : Str) (i : Nat) : MigMapping :=
  if col = "version_0".toList then { mp with version0 := some i }
  else if col = "version_1".toList then { mp with version1 := some i }
  else if col = "version_2".toList then { mp with version2 := some i }
  else if col = "name".toList then { mp with name := some i }
  else mp

/-- from_query_result.rs 16-22 `from_columns`, from index `i` on. -/
def MigMapping.fromColumns : Nat → List Column → MigMapping → MigMapping
  | _, [], mp => mp
  | i, col :: cols, mp => fromColumns (i + 1) cols (mp.set col.orgName i)

/-- model.rs 30-47: `row[mapping.x.ok_or(MissingField)?].take().try_into()?`; the value and the row
after `take`. -/
def takeField (t : ScalarTy) (name : String) (i? : Option Nat) (row : List Value) :
    Out ParseError (t.Carrier × List Value) :=
  match i? with
  | none => .err (.missingField name.toList)
  | some i =>
    match row[i]? with
    | none => .panic
    | some v => (tryInto t v).map' fun x => (x, row.set i .null)

/-- model.rs 25-50 `from_mapping_and_row`. -/
def migrationOf (cols : List Column) (row : List Value) : Out ParseError MigKey :=
  let mp := MigMapping.fromColumns 0 cols ⟨none, none, none, none⟩
  match takeField .u16 "version_0" mp.version0 row with
  | .err e => .err e
  | .panic => .panic
  | .ok (v0, row) =>
    match takeField .u16 "version_1" mp.version1 row with
    | .err e => .err e
    | .panic => .panic
    | .ok (v1, row) =>
      match takeField .u16 "version_2" mp.version2 row with
      | .err e => .err e
      | .panic => .panic
      | .ok (v2, row) =>
        match takeField .string "name" mp.name row with
        | .err e => .err e
        | .panic => .panic
        | .ok (n, _) => .ok (⟨v0, v1, v2⟩, n)

/-! ### `new` -/

/-- migrator_inner.rs 24. -/
def existsSql : Str :=
  "select 1 from `information_schema`.`PARTITIONS` where `TABLE_NAME` = \"migrations\" and `TABLE_SCHEMA` = DATABASE()".toList

/-- 27-34. -/
def createSql : Str :=
  "create table `migrations` (
                    `version_0` smallint unsigned not null,
                    `version_1` smallint unsigned not null,
                    `version_2` smallint unsigned not null,
                    `name` varchar(255) not null,
                    `applied_at` datetime not null default current_timestamp,
                    unique (`version_0`, `version_1`, `version_2`, `name`)
                )".toList

/-- 41. -/
def selectSql : Str := "select `version_0`, `version_1`, `version_2`, `name` from `migrations`".toList

/-- 45-62: the loop over the rows; `fuel` bounds the number of iterations. -/
def loadLoop (fp : FloatParse) (ms : List MigList) :
    Nat → RSet → (Version → List Str) → M (Version → List Str)
  | 0, _, _ => SM.crash
  | fuel + 1, rs, applied => do
    let (rs', k?) ← rs.next (textReader fp migrationOf)
    match k? with
    | none => pure applied
    | some k => if isKnown ms k then loadLoop fp ms fuel rs' (insertApplied applied k) else SM.crash

/-- 39-62. -/
def loadTable (fp : FloatParse) (ms : List MigList) : M (Version → List Str) := do
  let rs ← query selectSql
  let c ← SM.get
  loadLoop fp ms (c.rx.length + 2) rs fun _ => []

/-- 24-37: create the table if there is none. -/
def ensureTable (fp : FloatParse) : M Unit := do
  let rs ← query existsSql
  let (_, rows) ← rs.collect (textReader fp mkPlain)
  if rows.isEmpty then do
    let _ ← executeQuery createSql
    pure ()
  else pure ()

/-- 17-68 `new`: the field `applied`. -/
def migratorOpen (debug : Bool) (fp : FloatParse) (ms : List MigList) : M (Version → List Str) := do
  if debug && !ordered ms then SM.crash
  else do
    ensureTable fp
    loadTable fp ms

/-! ### `up`, `down` -/

/-- a connection and a migrator. -/
structure MigWire where
  conn : Conn
  applied : Version → List Str

/-- an action on the connection of the pool. -/
def onConn {α : Type} (m : M α) : SM MigWire Error α := fun s =>
  ((m s.conn).1, { s with conn := (m s.conn).2 })

/-- the texts of the migrations (`simple_migration!`, mod.rs 10-45), and their effects: `up` and
`down` are `pool.get().await?.execute_query(…)` (29, 41), the records 116, 136, 158. -/
def wired (upSql downSql : MigKey → Str) : MigEnv MigWire Error where
  effect
    | .up k => onConn do
      let _ ← executeQuery (upSql k)
      pure ()
    | .down k => onConn do
      let _ ← executeQuery (downSql k)
      pure ()
    | .conn => pure ()
    | .insert k => onConn do
      let _ ← executeQuery (insertSql k)
      pure ()
    | .delete k => onConn do
      let _ ← executeQuery (deleteSql k)
      pure ()
  applied := MigWire.applied
  setApplied a s := { s with applied := a }

end Verif

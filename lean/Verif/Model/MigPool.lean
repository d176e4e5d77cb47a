import Verif.Model.MigratorWire
import Verif.Model.Fill

/-!
# The migrator on a pool

Mirrors `src/migrator/migrator_inner.rs` and `examples/migrations`, with migrations that are arbitrary
programs on a pool of connections (`Migration::up`, `Migration::down`, src/migrator/migration.rs 7-16).

Which connection `pool.get()` hands out is decided by `pick`, from what was got and given back so far.  The
connections are logged in (C63), getting one does not fail (that it may is part of the effects of
`Model/Migrator.lean`).  The program is one task: what is written on the connections is in one order.
-/

namespace Verif

/-- `pool.get()` has handed out a connection, or its `PoolItem` was dropped. -/
inductive PoolUse where
  | got (i : Nat)
  | back (i : Nat)
  deriving DecidableEq, Repr

structure PoolMig where
  conns : Conns
  hist : List PoolUse
  pick : List PoolUse → Nat
  /-- the field `applied` of the migrator -/
  applied : Version → List Str

/-- `let conn = pool.get().await?; …` to the end of the block, where the `PoolItem` is dropped, however it
ends (src/pool/pool_item.rs 43-48). -/
def withConn {α : Type} (f : Nat → SM PoolMig Error α) : SM PoolMig Error α := fun s =>
  let i := s.pick s.hist
  let y := f i { s with hist := s.hist ++ [.got i] }
  (y.1, { y.2 with hist := y.2.hist ++ [.back i] })

/-- calls on connections. -/
def calls {α : Type} (x : SM Conns Error α) : SM PoolMig Error α := fun s =>
  ((x s.conns).1, { s with conns := (x s.conns).2 })

/-- `pool.get().await?.execute_query(sql).await.map(|_| {})` (mod.rs 29, 41, migrator_inner.rs 116, 136, 158). -/
def getExecute (sql : Str) : SM PoolMig Error Unit :=
  withConn fun i => calls do
    let _ ← on i (executeQuery sql)
    pure ()

/-- the migrator with these migrations; getting the connection for the record is part of writing the record
(migrator_inner.rs 116, 136, 158). -/
def pooled (up down : MigKey → SM PoolMig Error Unit) : MigEnv PoolMig Error where
  effect
    | .up k => up k
    | .down k => down k
    | .conn => pure ()
    | .insert k => getExecute (insertSql k)
    | .delete k => getExecute (deleteSql k)
  applied := PoolMig.applied
  setApplied a s := { s with applied := a }

/-- migrator_inner.rs 17-68 `new`, with the connection of 23. -/
def pooledOpen (debug : Bool) (fp : FloatParse) (ms : List MigList) : SM PoolMig Error Unit := do
  let a ← withConn fun i => calls (on i (migratorOpen debug fp ms))
  SM.modify fun s => { s with applied := a }

/-- `Result::unwrap`. -/
def SM.unwrap {σ ε α : Type} (x : SM σ ε α) : SM σ ε α := fun s =>
  match x s with
  | (.err _, s') => (.panic, s')
  | y => y

/-- examples/migrations/main.rs 24-29, for any version and migrations. -/
def migrateMain (debug : Bool) (fp : FloatParse) (ms : List MigList) (up down : MigKey → SM PoolMig Error Unit)
    (t : Version) : SM PoolMig Error Unit := do
  (pooledOpen debug fp ms).unwrap
  ((pooled up down).toVersion t ms).unwrap
  ((pooled up down).up ms).unwrap

/-! ### the migrations of the example -/

/-- examples/migrations/migrations/v0_1_1.rs 22-51. -/
def fillUp (fp : FloatParse) : SM PoolMig Error Unit :=
  withConn fun i0 => do
    calls (fillAlter i0)
    withConn fun i1 => withConn fun i2 => calls (fillRows i0 i1 i2 fp)

/-- examples/migrations/migrations/v0_1_1.rs 54-69. -/
def fillDownUp : SM PoolMig Error Unit := withConn fun i0 => calls (fillDown i0)

/-- examples/migrations/migrations/v0_1_0.rs 10-14. -/
def createUserSql : Str :=
  "CREATE TABLE `user` (
        `id` INT UNSIGNED NOT NULL AUTO_INCREMENT PRIMARY KEY,
        `name` VARCHAR(255) NOT NULL,
        `email` VARCHAR(255)
    )".toList
/-- 15. -/
def dropUserSql : Str := "DROP TABLE `user`".toList
/-- 20-28. -/
def createAddressSql : Str :=
  "CREATE TABLE `address` (
        `id` INT UNSIGNED NOT NULL AUTO_INCREMENT PRIMARY KEY,
        `user` INT UNSIGNED NOT NULL,
        `street` VARCHAR(255) NOT NULL,
        `number` VARCHAR(10) NOT NULL,
        `postal_code` VARCHAR(10) NOT NULL,
        `country` CHAR(2) NOT NULL,
        CONSTRAINT `address-user` FOREIGN KEY (`user`) REFERENCES `user`(`id`)
    )".toList
/-- 29. -/
def dropAddressSql : Str := "DROP TABLE `address`".toList

/-- v0_1_0.rs 3-6, v0_1_1.rs 5-8, mod.rs 6: `MIGRATION_LISTS`; the names are those of the types
(`stringify!`, src/migrator/mod.rs 17) and v0_1_1.rs 14. -/
def exampleLists : List MigList :=
  [⟨⟨0, 1, 0⟩, ["CreateUser".toList, "CreateAddress".toList]⟩, ⟨⟨0, 1, 1⟩, ["UserAddPrimaryAddress".toList]⟩]

/-- what `up` of the migration with this name does. -/
def exampleUp (fp : FloatParse) (k : MigKey) : SM PoolMig Error Unit :=
  if k.2 = "CreateUser".toList then getExecute createUserSql
  else if k.2 = "CreateAddress".toList then getExecute createAddressSql
  else fillUp fp

def exampleDown (k : MigKey) : SM PoolMig Error Unit :=
  if k.2 = "CreateUser".toList then getExecute dropUserSql
  else if k.2 = "CreateAddress".toList then getExecute dropAddressSql
  else fillDownUp

/-- examples/migrations/main.rs. -/
def exampleMain (debug : Bool) (fp : FloatParse) : SM PoolMig Error Unit :=
  migrateMain debug fp exampleLists (exampleUp fp) exampleDown ⟨0, 0, 0⟩

/-! ### the pool of the code -/

/-- async_pool.rs 21-24, 78-97 without anybody else: a connection that is given back goes to the end of the
queue; the first one of the queue is handed out, or a new one if it is empty.  The queue, and the number of
connections created.  Their number is not limited here. -/
def fifoStep (s : List Nat × Nat) : PoolUse → List Nat × Nat
  | .got _ =>
    match s.1 with
    | _ :: rest => (rest, s.2)
    | [] => ([], s.2 + 1)
  | .back i => (s.1 ++ [i], s.2)

def fifo (us : List PoolUse) : List Nat × Nat := us.foldl fifoStep ([], 0)

def fifoPick (us : List PoolUse) : Nat :=
  match (fifo us).1 with
  | i :: _ => i
  | [] => (fifo us).2

end Verif

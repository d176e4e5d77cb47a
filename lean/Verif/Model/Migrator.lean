import Verif.Model.Display

/-!
# The migrator

Mirrors `src/migrator/migrator_inner.rs` and `src/migrator/migration.rs`.

What the migrator touches outside of itself is a list of effects: the `up` and `down` actions of the
user's migrations, getting a connection from the pool, and the two bookkeeping statements.  A `script`
says how each of them turns out; when it is used up, the process dies, so that every possible crash
point is a script.  The table `migrations` is a list of keys; `insert` adds one, `delete` removes
all rows equal to the key (the server compares names by the table's collation, which may identify
more names; that is outside of the model).
-/

namespace Verif

/-- migration.rs 37-38. -/
structure Version where
  major : UInt16
  minor : UInt16
  patch : UInt16
  deriving DecidableEq, Repr

/-- `u16::cmp`. -/
def cmp16 (a b : UInt16) : Ordering := compare a.toNat b.toNat

/-- migration.rs 40-52 `Ord for Version`. -/
def Version.cmp (a b : Version) : Ordering :=
  match cmp16 a.major b.major with
  | .eq =>
    match cmp16 a.minor b.minor with
    | .eq => cmp16 a.patch b.patch
    | ord => ord
  | ord => ord

/-- `>`, `>=` of `PartialOrd` (migration.rs 54-58). -/
def Version.gt (a b : Version) : Bool := a.cmp b == .gt
def Version.ge (a b : Version) : Bool := a.cmp b != .lt

/-- migration.rs 60-64 `Display for Version`. -/
def Version.display (v : Version) : Str :=
  '(' :: decStr v.major.toNat ++ '.' :: decStr v.minor.toNat ++ '.' :: decStr v.patch.toNat ++ [')']

/-- migration.rs 18-21 `MigrationList`; of the migrations only the names. -/
structure MigList where
  version : Version
  names : List Str
  deriving DecidableEq, Repr

/-- migration.rs 24-34 `MigrationList::ordered`. -/
def orderedFrom : MigList → List MigList → Bool
  | _, [] => true
  | a, b :: r => if a.version.ge b.version then false else orderedFrom b r

def ordered : List MigList → Bool
  | [] => true
  | a :: r => orderedFrom a r

/-- a row of the table `migrations` without the time. -/
abbrev MigKey := Version × Str

inductive MigEff where
  | up (k : MigKey)
  | down (k : MigKey)
  /-- `pool.get()` -/
  | conn
  | insert (k : MigKey)
  | delete (k : MigKey)
  deriving DecidableEq, Repr

/-- how an effect turns out; `errDone`: an error is reported, but it has taken place (a lost answer). -/
inductive MigOut where
  | ok | err | errDone
  deriving DecidableEq, Repr

inductive MigErr where
  | failed | died
  deriving DecidableEq, Repr

/-- the database, the future, and the migrator's field `applied`
(migrator_inner.rs 13, a hash map; a missing entry is an empty list). -/
structure MigState where
  /-- rows of the table `migrations` -/
  db : List MigKey
  /-- migrations in effect: `up` took place and no `down` after it -/
  schema : List MigKey
  log : List (MigEff × MigOut)
  script : List MigOut
  applied : Version → List Str

abbrev MigM := SM MigState MigErr

/-- what an effect does to the database. -/
def MigState.apply (s : MigState) : MigEff → MigState
  | .up k => { s with schema := s.schema ++ [k] }
  | .down k => { s with schema := s.schema.filter (· ≠ k) }
  | .conn => s
  | .insert k => { s with db := s.db ++ [k] }
  | .delete k => { s with db := s.db.filter (· ≠ k) }

/-- an `await?` on an effect. -/
def effect (e : MigEff) : MigM Unit := fun s =>
  match s.script with
  | [] => (.err .died, s)
  | o :: os =>
    let s' : MigState := { s with log := s.log ++ [(e, o)], script := os }
    match o with
    | .ok => (.ok (), s'.apply e)
    | .err => (.err .failed, s')
    | .errDone => (.err .failed, s'.apply e)

/-- migrator_inner.rs 74-81 `insert_applied`. -/
def insertApplied (applied : Version → List Str) (k : MigKey) : Version → List Str :=
  fun v => if v = k.1 then applied v ++ [k.2] else applied v

/-- migrator_inner.rs 83-95 `get_applied`: the position in the version's list. -/
def getApplied (applied : Version → List Str) (k : MigKey) : Option Nat :=
  (applied k.1).findIdx? (· == k.2)

/-- `Vec::swap_remove`. -/
def swapRemove {α : Type} (l : List α) (i : Nat) : List α :=
  match l.getLast? with
  | some x => (l.set i x).dropLast
  | none => l

/-! ### The code, for any outside -/

/-- what the migrator uses: the effects, and its own field `applied`. -/
structure MigEnv (σ ε : Type) where
  effect : MigEff → SM σ ε Unit
  applied : σ → Version → List Str
  setApplied : (Version → List Str) → σ → σ

namespace MigEnv

variable {σ ε : Type} (E : MigEnv σ ε)

/-- migrator_inner.rs 103-117: one migration of `up_to_version`. -/
def upOne (k : MigKey) : SM σ ε Unit := do
  let s ← SM.get
  match getApplied (E.applied s) k with
  | some _ => pure ()
  | none => do
    E.effect (.up k)
    SM.modify fun s => E.setApplied (insertApplied (E.applied s) k) s
    E.effect .conn
    E.effect (.insert k)

/-- 102: the inner loop. -/
def upNames (v : Version) : List Str → SM σ ε Unit
  | [] => pure ()
  | n :: ns => do
    E.upOne (v, n)
    upNames v ns

/-- 98-101: `Some(version) if migration_list.version > *version => ()`. -/
def upVersion (target : Option Version) (m : MigList) : SM σ ε Unit :=
  match target with
  | some v => if m.version.gt v then pure () else E.upNames m.version m.names
  | none => E.upNames m.version m.names

/-- 97-123 `up_to_version`. -/
def upToVersion (target : Option Version) : List MigList → SM σ ε Unit
  | [] => pure ()
  | m :: ms => do
    E.upVersion target m
    upToVersion target ms

/-- 70-72 `up`. -/
def up (ms : List MigList) : SM σ ε Unit := E.upToVersion none ms

/-- 134-136, 156-158: `down`, `swap_remove`, delete. -/
def downAt (k : MigKey) (i : Nat) : SM σ ε Unit := do
  E.effect (.down k)
  SM.modify fun s => E.setApplied
    (fun v => if v = k.1 then swapRemove (E.applied s v) i else E.applied s v) s
  E.effect .conn
  E.effect (.delete k)

/-- 129-137: one migration of `down_to_version`. -/
def downOne (k : MigKey) : SM σ ε Unit := do
  let s ← SM.get
  match getApplied (E.applied s) k with
  | some i => E.downAt k i
  | none => pure ()

/-- 128: the inner loop, over the reversed list. -/
def downNames (v : Version) : List Str → SM σ ε Unit
  | [] => pure ()
  | n :: ns => do
    E.downOne (v, n)
    downNames v ns

def downVersion (target : Version) (m : MigList) : SM σ ε Unit :=
  if m.version.gt target then E.downNames m.version m.names.reverse else pure ()

/-- 126: over the reversed list of versions. -/
def downVersions (target : Version) : List MigList → SM σ ε Unit
  | [] => pure ()
  | m :: ms => do
    E.downVersion target m
    downVersions target ms

/-- 125-142 `down_to_version`. -/
def downToVersion (target : Version) (ms : List MigList) : SM σ ε Unit :=
  E.downVersions target ms.reverse

/-- 144-147 `to_version`. -/
def toVersion (target : Version) (ms : List MigList) : SM σ ε Unit := do
  E.upToVersion (some target) ms
  E.downToVersion target ms

/-- 149-164 `one_down`, over all migrations in reverse order. -/
def oneDownKeys : List MigKey → SM σ ε Bool
  | [] => pure false
  | k :: ks => do
    let s ← SM.get
    match getApplied (E.applied s) k with
    | some i => do
      E.downAt k i
      pure true
    | none => oneDownKeys ks

def oneDown (ms : List MigList) : SM σ ε Bool :=
  E.oneDownKeys (ms.reverse.flatMap fun m => m.names.reverse.map fun n => (m.version, n))

end MigEnv

/-! ### The code, with effects by script -/

def scripted : MigEnv MigState MigErr where
  effect := effect
  applied := MigState.applied
  setApplied a s := { s with applied := a }

abbrev upOne (k : MigKey) : MigM Unit := scripted.upOne k
abbrev upToVersion (target : Option Version) (ms : List MigList) : MigM Unit := scripted.upToVersion target ms
abbrev up (ms : List MigList) : MigM Unit := scripted.up ms
abbrev downAt (k : MigKey) (i : Nat) : MigM Unit := scripted.downAt k i
abbrev downOne (k : MigKey) : MigM Unit := scripted.downOne k
abbrev downToVersion (target : Version) (ms : List MigList) : MigM Unit := scripted.downToVersion target ms
abbrev toVersion (target : Version) (ms : List MigList) : MigM Unit := scripted.toVersion target ms
abbrev oneDownKeys (ks : List MigKey) : MigM Bool := scripted.oneDownKeys ks
abbrev oneDown (ms : List MigList) : MigM Bool := scripted.oneDown ms

/-! ### Starting -/

/-- 46-60: is the row one of the migrations? Only the first list of its version is searched. -/
def isKnown (ms : List MigList) (k : MigKey) : Bool :=
  match ms.find? (·.version == k.1) with
  | some m => m.names.contains k.2
  | none => false

/-- 44-62: `applied` from the rows of the table (in any order the server sends them);
`none` = panic on an unknown migration. -/
def loadApplied (ms : List MigList) : List MigKey → (Version → List Str) → Option (Version → List Str)
  | [], a => some a
  | k :: ks, a => if isKnown ms k then loadApplied ms ks (insertApplied a k) else none

/-- 17-68 `new`, from the decoded rows. -/
def migratorNew (ms : List MigList) (rows : List MigKey) : Option (Version → List Str) :=
  loadApplied ms rows fun _ => []

/-! ### The statements -/

/-- 116. -/
def insertSql (k : MigKey) : Str :=
  "insert into `migrations` (`version_0`, `version_1`, `version_2`, `name`) values (".toList ++
    decStr k.1.major.toNat ++ ", ".toList ++ decStr k.1.minor.toNat ++ ", ".toList ++
    decStr k.1.patch.toNat ++ ", \"".toList ++ k.2 ++ "\")".toList

/-- 136, 158. -/
def deleteSql (k : MigKey) : Str :=
  "delete from `migrations` where `version_0` = ".toList ++ decStr k.1.major.toNat ++
    " and `version_1` = ".toList ++ decStr k.1.minor.toNat ++ " and `version_2` = ".toList ++
    decStr k.1.patch.toNat ++ " and `name` = \"".toList ++ k.2 ++ "\"".toList

end Verif

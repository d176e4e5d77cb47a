import Verif.Spec.MigServer
import Verif.Spec.Fill
import Verif.Model.MigPool

/-!
# Spec: a server with a table of migrations, and several connections to it

Statements about the table `migrations` are executed as in Spec/MigServer, on whichever connection they
arrive.  What other commands do is arbitrary; it may depend on the connection and on what was done on it
before (`W`).  Of that, the contents of the database are `view`.
-/

namespace Verif.Spec

structure PoolServer (W D : Type) where
  mig : MigServer D
  /-- the contents of the database, without `migrations`. -/
  view : W → D
  /-- commands about something else. -/
  other : Nat → W → Bytes → Option (W × List Bytes)

/-- a statement about `migrations`. -/
def aboutMig : Bytes → Bool
  | 0x03 :: bs => (((fromUtf8 bs).bind tokens).bind readMig).isSome
  | _ => false

namespace PoolServer

variable {W D : Type} (S : PoolServer W D)

/-- the reaction to a command on connection `i`. -/
def react (i : Nat) (st : MigStore W) (cmd : Bytes) : Option (MigStore W × List Bytes) :=
  if aboutMig cmd then do
    let (st', ps) ← S.mig.react ⟨st.table, S.view st.world⟩ cmd
    some (⟨st'.table, st.world⟩, ps)
  else do
    let (w, ps) ← S.other i st.world cmd
    some (⟨st.table, w⟩, ps)

/-- a conversation in which these commands arrive, each on its connection: the state afterwards and the
bytes sent on every connection. -/
def talk : MigStore W → List (Nat × Bytes) → Option (MigStore W × (Nat → Bytes))
  | st, [] => some (st, fun _ => [])
  | st, (i, m) :: ms => do
    let (st1, replies) ← S.react i st m
    let (st2, sent) ← talk st1 ms
    some (st2, fun j =>
      if j = i then framesAll (UInt8.ofNat (frameCount m)) replies ++ sent j else sent j)

end PoolServer

/-! ### what is expected -/

/-- what a migration does to the database: the contents afterwards, and the error if it is refused (it may
have done something before that). -/
abbrev Step (D : Type) := D → D × Option SqlError

namespace MigServer

variable {D : Type} (S : MigServer D)

/-- migrating up: every migration takes effect and is recorded, up to the first thing that is refused. -/
def applySteps (up : MigKey → Step D) (d : D) (rows : List MigKey) : List MigKey → D × List MigKey × Option SqlError
  | [] => (d, rows, none)
  | k :: ks =>
    match up k d with
    | (d', some e) => (d', rows, some e)
    | (d', none) =>
      match S.inserted d' rows k.1.major.toNat k.1.minor.toNat k.1.patch.toNat k.2 with
      | .error e => (d', rows, some e)
      | .ok rows' => applySteps up d' rows' ks

/-- the migrations that took effect: all that are recorded, and perhaps the next, whose record was refused. -/
def stepsTaken (up : MigKey → Step D) (d : D) (rows : List MigKey) : List MigKey → List MigKey
  | [] => []
  | k :: ks =>
    match up k d with
    | (_, some _) => []
    | (d', none) =>
      match S.inserted d' rows k.1.major.toNat k.1.minor.toNat k.1.patch.toNat k.2 with
      | .error _ => [k]
      | .ok rows' => k :: stepsTaken up d' rows' ks

/-- migrating down. -/
def revertSteps (down : MigKey → Step D) (d : D) (rows : List MigKey) : List MigKey → D × List MigKey × Option SqlError
  | [] => (d, rows, none)
  | k :: ks =>
    match down k d with
    | (d', some e) => (d', rows, some e)
    | (d', none) => revertSteps down d' (rows.filter fun j => !(decide (j.1 = k.1) && S.same j.2 k.2)) ks

/-- the migrations that were reverted. -/
def stepsUndone (down : MigKey → Step D) (d : D) : List MigKey → List MigKey
  | [] => []
  | k :: ks =>
    match down k d with
    | (_, some _) => []
    | (d', none) => k :: stepsUndone down d' ks

/-- one after the other, up to the first error. -/
def andThen {A : Type} (x : D × A × Option SqlError) (f : D → A → D × A × Option SqlError) : D × A × Option SqlError :=
  match x with
  | (d, a, some e) => (d, a, some e)
  | (d, a, none) => f d a

end MigServer

/-! ### who has which connection -/

/-- the connections handed out and not given back. -/
def heldNow : List PoolUse → List Nat := List.foldl (fun h u =>
  match u with
  | .got i => i :: h
  | .back i => h.erase i) []

/-- the histories there can be with a pool. -/
inductive History (pick : List PoolUse → Nat) : List PoolUse → Prop
  | start : History pick []
  | got {us} : History pick us → History pick (us ++ [.got (pick us)])
  | back {us i} : History pick us → i ∈ heldNow us → History pick (us ++ [.back i])

/-- a pool that does not hand out a connection somebody has. -/
def Exclusive (pick : List PoolUse → Nat) : Prop := ∀ us, History pick us → pick us ∉ heldNow us

/-- the bytes written, in order, each with its connection. -/
def written (log : List (Nat × Bytes)) : List (Nat × UInt8) := log.flatMap fun x => x.2.map fun b => (x.1, b)

/-! ### the server of the example -/

/-- the server of the example: users, addresses and the column as in Spec/Fill, and whatever else there is
(`X`), on which the statements that create and drop tables work. -/
def fillPool {X : Type} (mig : MigServer (FillDb × X)) (F : X → FillServer)
    (ddl : FillDb × X → Str → Except SqlError (FillDb × X)) : PoolServer (FillState × X) (FillDb × X) where
  mig := mig
  view w := (w.1.db, w.2)
  other i w cmd :=
    match (F w.2).react i w.1 cmd with
    | some (st, ps) => some ((st, w.2), ps)
    | none =>
      match cmd with
      | 0x03 :: bs => do
        let text ← fromUtf8 bs
        match ddl (w.1.db, w.2) text with
        | .ok (db, x) => some (({ w.1 with db := db }, x), [mig.okAnswer 0])
        | .error e => some (w, [mig.errAnswer e])
      | _ => none

section
variable {X : Type} (F : X → FillServer) (ddl : FillDb × X → Str → Except SqlError (FillDb × X))

/-- a statement. -/
def ddlStep (sql : Str) : Step (FillDb × X) := fun d =>
  match ddl d sql with
  | .ok d' => (d', none)
  | .error e => (d, some e)

/-- the column, and its contents. -/
def fillStep : Step (FillDb × X) := fun d => ((((F d.2).filled d.1).1, d.2), ((F d.2).filled d.1).2)

/-- the column is dropped. -/
def unfillStep : Step (FillDb × X) := fun d =>
  match (F d.2).refusesDrop d.1 with
  | some e => (d, some e)
  | none => (({ d.1 with primary := none }, d.2), none)

/-- the migrations of the example, by name. -/
def exampleUpStep (k : MigKey) : Step (FillDb × X) :=
  if k.2 = "CreateUser".toList then ddlStep ddl createUserSql
  else if k.2 = "CreateAddress".toList then ddlStep ddl createAddressSql
  else fillStep F

def exampleDownStep (k : MigKey) : Step (FillDb × X) :=
  if k.2 = "CreateUser".toList then ddlStep ddl dropUserSql
  else if k.2 = "CreateAddress".toList then ddlStep ddl dropAddressSql
  else unfillStep F

end

end Verif.Spec

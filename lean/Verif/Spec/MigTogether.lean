import Verif.Spec.MigServer
import Verif.Spec.Migrate

/-!
# Spec: several programs migrate one database at the same time

Each program starts a migrator and migrates up.  They share the server, every statement is executed as a
whole, and in between others may be executed (a schedule says whose turn it is).  A program whose turn
never comes again has been stopped.
-/

namespace Verif.Spec

/-- a program: its migrations, and the statement of each. -/
structure MigJob where
  lists : List MigList
  upSql : MigKey → Str

/-- what a program does next, or how it ended. -/
inductive MigPhase where
  /-- is there a table? -/
  | ask
  | create
  | load
  /-- the statement of `k`; then its record, and the others. -/
  | up (k : MigKey) (ks : List MigKey)
  | record (k : MigKey) (ks : List MigKey)
  | done
  | failed (e : SqlError)
  /-- there was a row that is not one of the migrations. -/
  | crashed
  deriving DecidableEq

def MigPhase.ended : MigPhase → Bool
  | .done => true
  | .failed _ => true
  | .crashed => true
  | _ => false

def MigPhase.todo : List MigKey → MigPhase
  | [] => .done
  | k :: ks => .up k ks

/-- what happened. -/
inductive MigEvent where
  /-- the table was read. -/
  | read (rows : List MigKey)
  /-- the statement of a migration took effect. -/
  | took (k : MigKey)
  /-- a migration was recorded. -/
  | recorded (k : MigKey)
  deriving DecidableEq

/-- what the table lacks. -/
def MigJob.lacks (j : MigJob) (rows : List MigKey) : List MigKey := (declared j.lists).filter fun k => decide (k ∉ rows)

namespace MigServer

variable {W : Type} (S : MigServer W)

/-- one statement of a program. -/
def advance (j : MigJob) (st : MigStore W) : MigPhase → MigStore W × MigPhase × List MigEvent
  | .ask => (st, if st.table.isSome then .load else .create, [])
  | .create =>
    match st.table with
    | none => ({ st with table := some [] }, .load, [])
    | some _ => (st, .failed S.hasTable, [])
  | .load =>
    match st.table with
    | none => (st, .failed S.noTable, [])
    | some rows => (st, if rows.all fun k => decide (k ∈ declared j.lists) then .todo (j.lacks rows) else .crashed,
        [.read rows])
  | .up k ks =>
    match S.foreign st.world (j.upSql k) with
    | .ok w => ({ st with world := w }, .record k ks, [.took k])
    | .error e => (st, .failed e, [])
  | .record k ks =>
    match st.table with
    | none => (st, .failed S.noTable, [])
    | some rows =>
      match S.inserted st.world rows k.1.major.toNat k.1.minor.toNat k.1.patch.toNat k.2 with
      | .ok rows' => ({ st with table := some rows' }, .todo ks, [.recorded k])
      | .error e => (st, .failed e, [])
  | p => (st, p, [])

/-- a conversation in which these commands arrive, each on its connection: the state afterwards and the
bytes sent on every connection. -/
def talkEach : MigStore W → List (Nat × Bytes) → Option (MigStore W × (Nat → Bytes))
  | st, [] => some (st, fun _ => [])
  | st, (i, m) :: ms => do
    let (st1, replies) ← S.react st m
    let (st2, sent) ← talkEach st1 ms
    some (st2, fun j =>
      if j = i then framesAll (UInt8.ofNat (frameCount m)) replies ++ sent j else sent j)

end MigServer

/-- the server, where every program is, and what happened until now. -/
structure MigSystem (W : Type) where
  store : MigStore W
  phase : Nat → MigPhase
  log : List (Nat × MigEvent)

namespace MigSystem

variable {W : Type} (S : MigServer W) (jobs : Nat → MigJob)

def started (st : MigStore W) : MigSystem W := ⟨st, fun _ => .ask, []⟩

/-- the turn of program `i`. -/
def turn (x : MigSystem W) (i : Nat) : MigSystem W :=
  let y := S.advance (jobs i) x.store (x.phase i)
  ⟨y.1, fun n => if n = i then y.2.1 else x.phase n, x.log ++ y.2.2.map fun e => (i, e)⟩

def run (x : MigSystem W) (schedule : List Nat) : MigSystem W := schedule.foldl (turn S jobs) x

/-- the rows of the table. -/
def rows (x : MigSystem W) : List MigKey := x.store.table.getD []

end MigSystem

/-- what was recorded, in order. -/
def recordedKeys (log : List (Nat × MigEvent)) : List MigKey := log.filterMap fun x =>
  match x.2 with
  | .recorded k => some k
  | _ => none

/-- what a program did. -/
def eventsOf (i : Nat) (log : List (Nat × MigEvent)) : List MigEvent := log.filterMap fun x =>
  if x.1 = i then some x.2 else none

/-- the commands on a connection. -/
def commandsOf (i : Nat) (cmds : List (Nat × Bytes)) : List Bytes := cmds.filterMap fun x =>
  if x.1 = i then some x.2 else none

end Verif.Spec

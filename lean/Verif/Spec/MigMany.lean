import Verif.Spec.MigTogether

/-!
# Spec: several programs move one database to versions at the same time

As in `Spec/MigTogether.lean`, but a program may also go down, or move to a version.
-/

namespace Verif.Spec

/-- what a program calls: `up`, `up_to_version(Some(v))`, `down_to_version(v)`, `to_version(v)`, `one_down`. -/
inductive MigGoal where
  | up
  | upTo (v : Version)
  | downTo (v : Version)
  | goto (v : Version)
  | back
  deriving DecidableEq

/-- what is to be recorded afterwards. -/
def MigGoal.applies : MigGoal → MigKey → Bool
  | .up, _ => true
  | .upTo v, k => decide (rank k.1 ≤ rank v)
  | .downTo _, _ => false
  | .goto v, k => decide (rank k.1 ≤ rank v)
  | .back, _ => false

/-- what may be reverted. -/
def MigGoal.reverts : MigGoal → MigKey → Bool
  | .up, _ => false
  | .upTo _, _ => false
  | .downTo v, k => decide (rank v < rank k.1)
  | .goto v, k => decide (rank v < rank k.1)
  | .back, _ => true

/-- what is not to be recorded afterwards. -/
def MigGoal.clears : MigGoal → MigKey → Bool
  | .back, _ => false
  | g, k => g.reverts k

/-- of what may be reverted, what is: all, or only one. -/
def MigGoal.most : MigGoal → List MigKey → List MigKey
  | .back, ks => ks.take 1
  | _, ks => ks

/-- a program: its migrations, the statements of each, and its goal. -/
structure MigMover where
  lists : List MigList
  upSql : MigKey → Str
  downSql : MigKey → Str
  goal : MigGoal

/-- a migration to apply (`true`) or to revert. -/
abbrev MigMove := Bool × MigKey

/-- what there is to do when these are the rows: apply what is missing, in order, then revert what is too
much (or one of that), the last first. -/
def MigMover.plan (j : MigMover) (rows : List MigKey) : List MigMove :=
  ((declared j.lists).filter fun k => j.goal.applies k && decide (k ∉ rows)).map (fun k => (true, k)) ++
  (j.goal.most ((declared j.lists).filter fun k => j.goal.reverts k && decide (k ∈ rows)).reverse).map (fun k => (false, k))

/-- the statement of a move. -/
def MigMover.sql (j : MigMover) (m : MigMove) : Str := if m.1 then j.upSql m.2 else j.downSql m.2

/-- what a program does next, or how it ended. -/
inductive MovePhase where
  /-- is there a table? -/
  | ask
  | create
  | load
  /-- the statement of `m`; then its record (or the removal of it), and the others. -/
  | act (m : MigMove) (ms : List MigMove)
  | note (m : MigMove) (ms : List MigMove)
  | done
  | failed (e : SqlError)
  /-- there was a row that is not one of the migrations. -/
  | crashed
  deriving DecidableEq

def MovePhase.ended : MovePhase → Bool
  | .done => true
  | .failed _ => true
  | .crashed => true
  | _ => false

def MovePhase.todo : List MigMove → MovePhase
  | [] => .done
  | m :: ms => .act m ms

/-- the program has read the table and has something left to do. -/
def MovePhase.underway : MovePhase → Bool
  | .act _ _ => true
  | .note _ _ => true
  | _ => false

/-- what happened. -/
inductive MoveEvent where
  /-- the table was read. -/
  | read (rows : List MigKey)
  /-- the statement of a move took effect. -/
  | took (m : MigMove)
  /-- it was recorded, or the record was removed. -/
  | noted (m : MigMove)
  deriving DecidableEq

namespace MigServer

variable {W : Type} (S : MigServer W)

/-- one statement of a program. -/
def moveOn (j : MigMover) (st : MigStore W) : MovePhase → MigStore W × MovePhase × List MoveEvent
  | .ask => (st, if st.table.isSome then .load else .create, [])
  | .create =>
    match st.table with
    | none => ({ st with table := some [] }, .load, [])
    | some _ => (st, .failed S.hasTable, [])
  | .load =>
    match st.table with
    | none => (st, .failed S.noTable, [])
    | some rows => (st, if rows.all fun k => decide (k ∈ declared j.lists) then .todo (j.plan rows) else .crashed,
        [.read rows])
  | .act m ms =>
    match S.foreign st.world (j.sql m) with
    | .ok w => ({ st with world := w }, .note m ms, [.took m])
    | .error e => (st, .failed e, [])
  | .note (true, k) ms =>
    match st.table with
    | none => (st, .failed S.noTable, [])
    | some rows =>
      match S.inserted st.world rows k.1.major.toNat k.1.minor.toNat k.1.patch.toNat k.2 with
      | .ok rows' => ({ st with table := some rows' }, .todo ms, [.noted (true, k)])
      | .error e => (st, .failed e, [])
  | .note (false, k) ms =>
    match st.table with
    | none => (st, .failed S.noTable, [])
    | some rows => ({ st with table := some (rows.filter fun j => !S.clash j k) }, .todo ms, [.noted (false, k)])
  | p => (st, p, [])

end MigServer

/-- the server, where every program is, and what happened until now. -/
structure MoveSystem (W : Type) where
  store : MigStore W
  phase : Nat → MovePhase
  log : List (Nat × MoveEvent)

namespace MoveSystem

variable {W : Type} (S : MigServer W) (jobs : Nat → MigMover)

def started (st : MigStore W) : MoveSystem W := ⟨st, fun _ => .ask, []⟩

/-- the turn of program `i`. -/
def turn (x : MoveSystem W) (i : Nat) : MoveSystem W :=
  let y := S.moveOn (jobs i) x.store (x.phase i)
  ⟨y.1, fun n => if n = i then y.2.1 else x.phase n, x.log ++ y.2.2.map fun e => (i, e)⟩

def run (x : MoveSystem W) (schedule : List Nat) : MoveSystem W := schedule.foldl (turn S jobs) x

/-- the rows of the table. -/
def rows (x : MoveSystem W) : List MigKey := x.store.table.getD []

end MoveSystem

/-- the rows of the table, from what happened: a record is added at the end, a removal takes away what the
server takes for the same. -/
def rowsAfter {W : Type} (S : MigServer W) (rows0 : List MigKey) (log : List (Nat × MoveEvent)) : List MigKey :=
  log.foldl (fun rows x =>
    match x.2 with
    | .noted (true, k) => rows ++ [k]
    | .noted (false, k) => rows.filter fun j => !(decide (j.1 = k.1) && S.same j.2 k.2)
    | _ => rows) rows0

/-- whether the last statement of `k` that took effect applied it; `b` if there was none. -/
def inEffect (b : Bool) (k : MigKey) (log : List (Nat × MoveEvent)) : Bool :=
  log.foldl (fun b x =>
    match x.2 with
    | .took m => if m.2 = k then m.1 else b
    | _ => b) b

end Verif.Spec

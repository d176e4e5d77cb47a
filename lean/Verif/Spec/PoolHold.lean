import Verif.Spec.PoolTasks
import Verif.Model.MigPool

/-!
# Spec: tasks that hold several connections of the library's pool at a time

A task is a program that gets connections and drops them; what it does with them in between does not matter here.  The
connections come from the pool (`Model/Pool`), step by step and in any order.  At its end a task drops what it still
holds, and it may come to its end early.  When it gave up waiting or a connection could not be opened, it may ask again.
-/

namespace Verif.Spec

inductive HoldOp where
  /-- `pool.get().await` -/
  | get
  /-- drop one of the connections it holds, the newest has number 0 -/
  | drop (j : Nat)
  deriving DecidableEq, Repr

/-- a task: the requests its connections came from, the newest first; the request it waits for; what it is still going to
do. -/
structure HoldTask where
  held : List Nat
  want : Option Nat
  rest : List HoldOp
  deriving DecidableEq, Repr

/-- the largest number of connections that a program holds at a time, when it holds `h` to begin with. -/
def peak : Nat → List HoldOp → Nat
  | h, [] => h
  | h, .get :: ops => peak (h + 1) ops
  | h, .drop j :: ops => max h (peak (if j < h then h - 1 else h) ops)

structure PoolHold where
  pool : Pool
  task : Nat → HoldTask

inductive HoldMove where
  /-- task `i` asks for a connection -/
  | ask (i : Nat)
  /-- a step of its request -/
  | poll (i : Nat) (e : PoolEv)
  /-- it drops a connection -/
  | next (i : Nat)
  /-- it ends early -/
  | quit (i : Nat)
  deriving DecidableEq, Repr

/-- a move with which nobody gives up, and no connection fails. -/
def HoldMove.keepsOn : HoldMove → Bool
  | .quit _ => false
  | .poll _ (.cancel _) => false
  | .poll _ (.createErr _) => false
  | _ => true

/-- after a step of request `r` of the task. -/
def HoldTask.polled (t : HoldTask) (r : Nat) : Option ReqState → HoldTask
  | some (.holding _) => ⟨r :: t.held, none, t.rest.tail⟩
  | some .failed => { t with want := none }
  | some .dropped => { t with want := none }
  | some .gone => { t with want := none }
  | _ => t

/-- it has done everything. -/
def HoldTask.ended (t : HoldTask) : Prop := t.held = [] ∧ t.want = none ∧ t.rest = []

namespace PoolHold

open PoolTasks (isPoll reqState)

def started (jobs : Nat → List HoldOp) : PoolHold := ⟨Pool.new, fun i => ⟨[], none, jobs i⟩⟩

def set (x : PoolHold) (p : Pool) (i : Nat) (t : HoldTask) : PoolHold :=
  ⟨p, fun n => if n = i then t else x.task n⟩

def step (N : Nat) (x : PoolHold) : HoldMove → Option PoolHold
  | .ask i =>
    match x.task i with
    | ⟨held, none, .get :: rest⟩ =>
      (x.pool.step N .request).map fun p => x.set p i ⟨held, some x.pool.reqs.length, .get :: rest⟩
    | _ => none
  | .poll i e =>
    match (x.task i).want with
    | some r =>
      if e.req = r ∧ isPoll e = true then
        (x.pool.step N e).map fun p => x.set p i ((x.task i).polled r (reqState p r))
      else none
    | none => none
  | .next i =>
    match x.task i with
    | ⟨held, none, .drop j :: rest⟩ =>
      match held[j]? with
      | some r => (x.pool.step N (.put r)).map fun p => x.set p i ⟨held.eraseIdx j, none, rest⟩
      | none => some (x.set x.pool i ⟨held, none, rest⟩)
    | ⟨r :: held, none, []⟩ => (x.pool.step N (.put r)).map fun p => x.set p i ⟨held, none, []⟩
    | _ => none
  | .quit i =>
    match x.task i with
    | ⟨held, none, _ :: _⟩ => some (x.set x.pool i ⟨held, none, []⟩)
    | _ => none

/-- the executions: `none` if a move is not possible. -/
def run (N : Nat) (x : PoolHold) : List HoldMove → Option PoolHold
  | [] => some x
  | m :: ms => (x.step N m).bind fun y => y.run N ms

end PoolHold

/-- the program that gets and drops as in a history of one task with the pool, holding these connections. -/
def holdProgram : List Nat → List PoolUse → List HoldOp
  | _, [] => []
  | h, .got i :: us => .get :: holdProgram (i :: h) us
  | h, .back i :: us => .drop (h.idxOf i) :: holdProgram (h.erase i) us

end Verif.Spec

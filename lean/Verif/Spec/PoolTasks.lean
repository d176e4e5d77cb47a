import Verif.Spec.StorePool
import Verif.Model.Pool

/-!
# Spec: tasks that store models on connections of the library's pool

The tasks are those of `StorePool`; the connections come from the pool (`Model/Pool`), step by step and in any order.
A task with something to store asks the pool, polls its request until it has a connection, stores, and drops the
connection.  It may give up waiting; when it gave up or the connection could not be opened, it may ask again.
-/

namespace Verif.Spec

/-- the pool, the tasks, and the request each of them waits for or got its connection from. -/
structure PoolTasks where
  pool : Pool
  store : StorePool
  req : Nat → Option Nat

inductive PoolMove where
  /-- task `i` asks for a connection -/
  | ask (i : Nat)
  /-- a step of its request -/
  | poll (i : Nat) (e : PoolEv)
  /-- the next statement on its connection, or the end of the job -/
  | next (i : Nat)

namespace PoolTasks

def started (rows : Tables) (jobs : Nat → List StoreJob) : PoolTasks :=
  ⟨Pool.new, StorePool.started rows jobs, fun _ => none⟩

/-- the request of task `i`. -/
def setReq (x : PoolTasks) (i : Nat) (r : Option Nat) : PoolTasks := { x with req := fun n => if n = i then r else x.req n }

/-- the state of request `r`. -/
def reqState (p : Pool) (r : Nat) : Option ReqState := (p.reqs[r]?).map (·.st)

/-- steps of a request that waits. -/
def isPoll : PoolEv → Bool
  | .request => false
  | .put _ => false
  | _ => true

/-- after a step of request `r` of task `i`: with a connection it begins its job; a request that ended without one is
forgotten. -/
def polled (S : SqlServer) (x : PoolTasks) (i r : Nat) : PoolTasks :=
  match reqState x.pool r with
  | some (.holding k) => { x with store := x.store.turn S (i, k) }
  | some .failed => x.setReq i none
  | some .dropped => x.setReq i none
  | some .gone => x.setReq i none
  | _ => x

def step (N : Nat) (S : SqlServer) (x : PoolTasks) : PoolMove → Option PoolTasks
  | .ask i =>
    match x.store.task i, x.req i with
    | .ok ⟨_, none, _ :: _⟩, none =>
      (x.pool.step N .request).map fun p => { x with pool := p }.setReq i (some x.pool.reqs.length)
    | _, _ => none
  | .poll i e =>
    match x.req i with
    | some r =>
      if e.req = r ∧ isPoll e = true then (x.pool.step N e).map fun p => { x with pool := p }.polled S i r
      else none
    | none => none
  | .next i =>
    match x.store.task i, x.req i with
    | .ok ⟨_, some (k, _, _), _⟩, some r =>
      if (x.store.turn S (i, k)).held k = none then
        (x.pool.step N (.put r)).map fun p => { x with pool := p, store := x.store.turn S (i, k) }.setReq i none
      else some { x with store := x.store.turn S (i, k) }
    | _, _ => none

/-- the executions: `none` if a move is not possible. -/
def run (N : Nat) (S : SqlServer) (x : PoolTasks) : List PoolMove → Option PoolTasks
  | [] => some x
  | m :: ms => (x.step N S m).bind fun y => y.run N S ms

/-- an executor polls a task only after it has been woken. -/
def mayMove (x : PoolTasks) : PoolMove → Bool
  | .poll _ e => x.pool.allowed e
  | _ => true

/-- the executions under an executor that makes no spurious polls. -/
def runExec (N : Nat) (S : SqlServer) (x : PoolTasks) : List PoolMove → Option PoolTasks
  | [] => some x
  | m :: ms => if x.mayMove m then (x.step N S m).bind fun y => y.runExec N S ms else none

end PoolTasks

end Verif.Spec

import Verif.Basic

/-!
# The pools

Mirrors `src/pool/async_pool.rs`, `src/pool/sync_pool.rs` and `Drop for PoolItem`
(src/pool/pool_item.rs 43-48).

`AsyncPool` is used from many threads.  The model is a transition system whose steps are the accesses
to shared memory, in any order: the two queues (crossbeam's `ArrayQueue` and `SegQueue`, taken to be
linearizable) and the atomic counter `items`.  All accesses to the counter are `Relaxed`, so a load
may return any earlier value; the counter only ever goes up by one, so the earlier values are the
numbers up to the current one.  `compare_exchange` acts on the current value.

A `request` is one `PoolTake` future (async_pool.rs 50-54) together with the `PoolItem` that comes out
of it.  `new` panics for `N = 0` (`ArrayQueue::new`), so `0 < N` is assumed where it matters.
-/

namespace Verif

/-- Where a request is. `reg` is the field `waker_added`. -/
inductive ReqState where
  /-- between polls, no connection being created (`add = None`) -/
  | waiting (reg : Bool)
  /-- in `poll` (async_pool.rs 83): the queue was empty -/
  | empty (reg : Bool)
  /-- in `poll` (86): `k < N` was loaded, the exchange comes next -/
  | loaded (reg : Bool) (k : Nat)
  /-- in `poll` (104-105): `N` or more was loaded, not yet registered -/
  | full
  /-- between polls or in `poll_add`, `add = Some(creation)` -/
  | creating
  /-- the future is finished; its `PoolItem` with this connection is alive -/
  | holding (conn : Nat)
  /-- finished with an error of the creation -/
  | failed
  /-- dropped while a connection was being created -/
  | dropped
  /-- dropped without a creation, or its item has been returned -/
  | gone
  deriving DecidableEq, Repr

structure Req where
  st : ReqState
  /-- the executor has been told (`wake_by_ref`) to poll again; new requests are polled once -/
  awake : Bool
  deriving DecidableEq, Repr

/-- async_pool.rs 13-18, the requests, and the number of connections created so far (also the next
connection's name). `lost` collects connections which did not fit into the queue. -/
structure Pool where
  items : Nat
  queue : List Nat
  wakers : List Nat
  reqs : List Req
  born : Nat
  lost : List Nat
  deriving DecidableEq, Repr

/-- async_pool.rs 28-35. -/
def Pool.new : Pool :=
  { items := 0, queue := [], wakers := [], reqs := [], born := 0, lost := [] }

/-- one step of somebody. -/
inductive PoolEv where
  /-- `get` (39-45) -/
  | request
  /-- a poll begins and pops the queue (75, 78-83) -/
  | pop (r : Nat)
  /-- the counter is loaded as `k` (84-85, 103) -/
  | load (r k : Nat)
  /-- the exchange (86-102); on success the creation is started (96) -/
  | cas (r : Nat)
  /-- the waker is registered (104-107) -/
  | register (r : Nat)
  /-- the creation comes back with a connection (57-66, 75-77, 97-99) -/
  | created (r : Nat)
  /-- the creation fails -/
  | createErr (r : Nat)
  /-- the future is dropped between polls -/
  | cancel (r : Nat)
  /-- the `PoolItem` is dropped: `put` (pool_item.rs 43-48, async_pool.rs 21-24) -/
  | put (r : Nat)
  deriving DecidableEq, Repr

def Pool.setReq (s : Pool) (r : Nat) (q : Req) : Pool := { s with reqs := s.reqs.set r q }

/-- one step of request `r`, which is `q`; `none` = not possible in this state. -/
def Pool.stepReq (N : Nat) (s : Pool) (r : Nat) (q : Req) : PoolEv → Option Pool
  | .request => none
  | .pop _ =>
    match q.st with
    | .waiting reg =>
      match s.queue with
      | conn :: rest => some ({ s with queue := rest }.setReq r { st := .holding conn, awake := false })
      | [] => some (s.setReq r { st := .empty reg, awake := false })
    | _ => none
  | .load _ k =>
    match q.st with
    | .empty reg =>
      if k ≤ s.items then
        if k < N then some (s.setReq r { q with st := .loaded reg k })
        else if reg then some (s.setReq r { q with st := .waiting true })
        else some (s.setReq r { q with st := .full })
      else none
    | _ => none
  | .cas _ =>
    match q.st with
    | .loaded reg k =>
      if s.items = k then some ({ s with items := k + 1 }.setReq r { q with st := .creating })
      else some (s.setReq r { st := .waiting reg, awake := true })
    | _ => none
  | .register _ =>
    match q.st with
    | .full => some ({ s with wakers := s.wakers ++ [r] }.setReq r { st := .waiting true, awake := true })
    | _ => none
  | .created _ =>
    match q.st with
    | .creating => some ({ s with born := s.born + 1 }.setReq r { q with st := .holding s.born })
    | _ => none
  | .createErr _ =>
    match q.st with
    | .creating => some (s.setReq r { q with st := .failed })
    | _ => none
  | .cancel _ =>
    match q.st with
    | .waiting _ => some (s.setReq r { q with st := .gone })
    | .creating => some (s.setReq r { q with st := .dropped })
    | _ => none
  | .put _ =>
    match q.st with
    | .holding conn =>
      if s.queue.length < N then
        some ({ s with queue := s.queue ++ [conn] }.setReq r { q with st := .gone })
      else some ({ s with lost := s.lost ++ [conn] }.setReq r { q with st := .gone })
    | _ => none

/-- the request that makes a step. -/
def PoolEv.req : PoolEv → Nat
  | .request => 0
  | .pop r | .load r _ | .cas r | .register r | .created r | .createErr r | .cancel r | .put r => r

def Pool.step (N : Nat) (s : Pool) (e : PoolEv) : Option Pool :=
  match e with
  | .request => some { s with reqs := s.reqs ++ [{ st := .waiting false, awake := true }] }
  | _ =>
    match s.reqs[e.req]? with
    | some q => s.stepReq N e.req q e
    | none => none

def Pool.run (N : Nat) (s : Pool) : List PoolEv → Option Pool
  | [] => some s
  | e :: es =>
    match s.step N e with
    | some s' => Pool.run N s' es
    | none => none

/-- an executor polls a task only after it has been woken. -/
def Pool.allowed (s : Pool) : PoolEv → Bool
  | .pop r => match s.reqs[r]? with
    | some q => q.awake
    | none => false
  | _ => true

/-- the executions under an executor that makes no spurious polls. -/
def Pool.runExec (N : Nat) (s : Pool) : List PoolEv → Option Pool
  | [] => some s
  | e :: es =>
    if s.allowed e then
      match s.step N e with
      | some s' => Pool.runExec N s' es
      | none => none
    else none

end Verif

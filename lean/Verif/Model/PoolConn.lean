import Verif.Model.Pool
import Verif.Model.Dialog

/-!
# A pool of connections

`impl AsyncPoolContent for Connection` (src/connection/mod.rs 96-108) makes the items of an `AsyncPool`
connections.  A `PoolItem` gives its holder `&mut Connection` (pool_item.rs 13-23); when it is dropped the
connection goes back as it is (43-48, async_pool.rs 21-24): nothing is reset or looked at.

A `Step` borrows the connection until its result is dropped, so steps on one connection do not overlap;
steps on different connections touch nothing common.
-/

namespace Verif

/-- a pool, and its connections by name; `conns i` of a connection not yet created is what it will be
when it is. -/
structure Service where
  pool : Pool
  conns : Nat → Conn

/-- the pool changes, or the holder of an item uses the connection. -/
inductive ServiceEv (R : Type) where
  | pool (e : PoolEv)
  | use (r : Nat) (x : Step R)

/-- pool_item.rs 13-23: the connection of the item that request `r` holds. -/
def Pool.held (s : Pool) (r : Nat) : Option Nat :=
  match s.reqs[r]? with
  | some q => match q.st with
    | .holding i => some i
    | _ => none
  | none => none

/-- one event; `none` = not possible. -/
def Service.step {R : Type} (N : Nat) (s : Service) : ServiceEv R → Option (Service × List (Seen R))
  | .pool e => (s.pool.step N e).map fun p => ({ s with pool := p }, [])
  | .use r x =>
    (s.pool.held r).map fun i =>
      let y := x.run (s.conns i)
      ({ s with conns := fun j => if j = i then y.2 else s.conns j }, [y.1])

/-- a history, and what the uses showed. -/
def Service.run {R : Type} (N : Nat) (s : Service) : List (ServiceEv R) → Option (Service × List (Seen R))
  | [] => some (s, [])
  | e :: es =>
    (s.step N e).bind fun x => (Service.run N x.1 es).map fun y => (y.1, x.2 ++ y.2)

end Verif

import Verif.Basic

/-!
# The buffer pool and the timeout

`SyncPool<Vec<u8>, N>` (src/pool/sync_pool.rs) with the users of its buffers, and
`Timeout` (src/connection/timeout.rs).

A buffer is a name, contents and a capacity.  Users own their buffer exclusively until they drop it
(`PoolItem`, src/pool/pool_item.rs 43-48), so only the queue operations have to be atomic; `reset`
happens before the buffer is shared.  `shrink_to` on a `Vec` with the global allocator leaves exactly
the requested capacity (the documentation promises at least that).
-/

namespace Verif

structure Buf where
  name : Nat
  data : Bytes
  cap : Nat
  deriving DecidableEq, Repr

/-- sync_pool.rs 43-47 `VecPoolCtx`. -/
structure VecCtx where
  sizeCap : Nat
  initSize : Nat
  deriving DecidableEq, Repr

/-- connection/mod.rs 23-28: the context of `BUFFER_POOL` and its size. -/
def bufferCtx : VecCtx := { sizeCap := 4 * 1024 * 1024, initSize := 1024 }
def bufferSlots : Nat := 64

/-- sync_pool.rs 7-10, the buffers in use and the number of buffers allocated so far. -/
structure BufPool where
  queue : List Buf
  used : List Buf
  born : Nat
  deriving DecidableEq, Repr

/-- sync_pool.rs 21-26 `new`. -/
def BufPool.new : BufPool := { queue := [], used := [], born := 0 }

/-- sync_pool.rs 56-61 `reset`: `set_len(0)`, `shrink_to(size_cap)`. -/
def Buf.reset (ctx : VecCtx) (b : Buf) : Buf := { b with data := [], cap := min b.cap ctx.sizeCap }

/-- sync_pool.rs 52-54 `new` for vectors. -/
def Buf.new (ctx : VecCtx) (name : Nat) : Buf := { name := name, data := [], cap := ctx.initSize }

/-- sync_pool.rs 28-34 `get`: the buffer and the new pool. -/
def BufPool.get (ctx : VecCtx) (s : BufPool) : Buf × BufPool :=
  match s.queue with
  | b :: rest => (b, { s with queue := rest, used := s.used ++ [b] })
  | [] =>
    let b := Buf.new ctx s.born
    (b, { s with used := s.used ++ [b], born := s.born + 1 })

/-- sync_pool.rs 13-17 `put`; a full queue drops the buffer. -/
def BufPool.put (ctx : VecCtx) (slots : Nat) (s : BufPool) (i : Nat) : BufPool :=
  match s.used[i]? with
  | none => s
  | some b =>
    let s' := { s with used := s.used.eraseIdx i }
    if s.queue.length < slots then { s' with queue := s.queue ++ [b.reset ctx] } else s'

/-- user `i` leaves `data` in its buffer; the capacity grows if needed, by any amount (`cap`). -/
def BufPool.write (s : BufPool) (i : Nat) (data : Bytes) (cap : Nat) : BufPool :=
  match s.used[i]? with
  | none => s
  | some b => { s with used := s.used.set i { b with data := data, cap := max b.cap (max data.length cap) } }

inductive BufEv where
  | get
  | write (i : Nat) (data : Bytes) (cap : Nat)
  | put (i : Nat)
  deriving DecidableEq, Repr

def BufPool.step (ctx : VecCtx) (slots : Nat) (s : BufPool) : BufEv → BufPool
  | .get => (s.get ctx).2
  | .write i data cap => s.write i data cap
  | .put i => s.put ctx slots i

def BufPool.run (ctx : VecCtx) (slots : Nat) (s : BufPool) (es : List BufEv) : BufPool :=
  es.foldl (BufPool.step ctx slots) s

/-! ### Timeout -/

/-- a future: what a poll returns (`none` = pending) and the state after it; `ω` is the state of the
world at the time of the poll (time, sockets). -/
structure Fut (ω σ α : Type) where
  poll : σ → ω → Option α × σ

/-- timeout.rs 26-41 `poll`; `.error ()` is the `TimedOut` error. -/
def Fut.timeout {ω σ τ α : Type} (f : Fut ω σ α) (delay : Fut ω τ Unit) :
    Fut ω (σ × τ) (Except Unit α) where
  poll s w :=
    match f.poll s.1 w with
    | (some x, s') => (some (.ok x), (s', s.2))
    | (none, s') =>
      match delay.poll s.2 w with
      | (some _, t') => (some (.error ()), (s', t'))
      | (none, t') => (none, (s', t'))

/-- poll at the moments `ws` until the future is ready: the number of polls that were pending, and
the result. -/
def Fut.await {ω σ α : Type} (f : Fut ω σ α) (s : σ) : List ω → Nat × Option α
  | [] => (0, none)
  | w :: ws =>
    match f.poll s w with
    | (some x, _) => (0, some x)
    | (none, s') =>
      let r := Fut.await f s' ws
      (r.1 + 1, r.2)

end Verif

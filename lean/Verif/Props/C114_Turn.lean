import Verif.Props.C113_Fair
import Verif.Spec.PoolTurn

/-!
# C114 — does a request that is polled again and again get its turn?
-/

namespace Verif

open Spec (PoolForever Starved PoolHold HoldTask HoldOp HoldMove FairRun peak)

/-! ### a request that never gets its turn -/

/-- request 1 waits, `n` others have had the only connection; `j` steps later. -/
def starve (n j : Nat) : Pool :=
  { items := 1, queue := if j < 2 then [0] else [], wakers := [1], born := 1, lost := [],
    reqs := ⟨.gone, false⟩ :: ⟨if j = 3 then .empty true else .waiting true, false⟩ ::
      (List.replicate n ⟨.gone, false⟩ ++
        if j = 0 then [] else [if j = 1 then ⟨.waiting false, true⟩ else ⟨.holding 0, false⟩]) }

/-- another request comes, takes the connection before request 1 looks again, and gives it back afterwards. -/
def starveMove (n : Nat) : Nat → PoolEv
  | 0 => .request
  | 1 => .pop (n + 2)
  | 2 => .pop 1
  | 3 => .load 1 1
  | _ => .put (n + 2)

theorem starve_step (n j : Nat) (hj : j < 5) :
    (starve n j).step 1 (starveMove n j) = some (if j < 4 then starve n (j + 1) else starve (n + 1) 0) := by
  match j, hj with
  | 0, _ => simp [starve, starveMove, Pool.step]
  | 1, _ => simp [starve, starveMove, Pool.step, PoolEv.req, Pool.stepReq, Pool.setReq]
  | 2, _ => simp [starve, starveMove, Pool.step, PoolEv.req, Pool.stepReq, Pool.setReq]
  | 3, _ => simp [starve, starveMove, Pool.step, PoolEv.req, Pool.stepReq, Pool.setReq]
  | 4, _ =>
    simp [starve, starveMove, Pool.step, PoolEv.req, Pool.stepReq, Pool.setReq, List.replicate_succ']

/-- in these states only the last request can have the connection. -/
theorem starve_holder {n j r c : Nat} {w : Bool} (h : (starve n j).reqs[r]? = some ⟨.holding c, w⟩) : r = n + 2 := by
  match r with
  | 0 => simp [starve] at h
  | 1 =>
    simp only [starve, List.getElem?_cons_succ, List.getElem?_cons_zero, Option.some.injEq, Req.mk.injEq] at h
    obtain ⟨h, -⟩ := h
    split at h <;> cases h
  | r + 2 =>
    simp only [starve, List.getElem?_cons_succ] at h
    by_cases hr : r < n
    · rw [List.getElem?_append_left (by simpa using hr)] at h
      simp [hr] at h
    · rw [List.getElem?_append_right (by simpa using hr), List.length_replicate] at h
      split at h
      · simp at h
      · have : r - n < 1 := by
          have := (List.getElem?_eq_some_iff.1 h).1
          simpa using this
        omega

/-- **C114 is violated.** A pool with one connection, which everyone who has it gives back; a request is polled again and
again, without ever being cancelled, and never gets the connection, since others come later and are served before.  There is
no order among those who wait. -/
theorem C114_starved_violated : ∃ s m, PoolForever 1 s m ∧ (∀ t, ∃ t', t ≤ t' ∧ m t' = .pop 1) ∧ Starved s 1 := by
  refine ⟨fun t => starve (t / 5) (t % 5), fun t => starveMove (t / 5) (t % 5),
    { start := ?_, step := ?_, keeps := ?_, fresh := ?_, back := ?_ }, ?_, ?_⟩
  · exact ⟨[.request, .pop 0, .load 0 0, .cas 0, .created 0, .request, .pop 1, .load 1 1, .register 1, .pop 1, .load 1 1,
      .put 0], by decide +kernel⟩
  · intro t
    rw [starve_step _ _ (Nat.mod_lt _ (by decide))]
    split
    · rw [show (t + 1) / 5 = t / 5 by omega, show (t + 1) % 5 = t % 5 + 1 by omega]
    · rw [show (t + 1) / 5 = t / 5 + 1 by omega, show (t + 1) % 5 = 0 by omega]
  · intro t r
    unfold starveMove
    split <;> simp
  · intro t r k h
    unfold starveMove at h
    split at h <;> cases h
    rfl
  · intro t r c w h
    refine ⟨t / 5 * 5 + 4, by omega, ?_⟩
    rw [starve_holder h, show (t / 5 * 5 + 4) / 5 = t / 5 by omega, show (t / 5 * 5 + 4) % 5 = 4 by omega]
    rfl
  · intro t
    refine ⟨t * 5 + 2, by omega, ?_⟩
    show starveMove _ ((t * 5 + 2) % 5) = _
    rw [show (t * 5 + 2) % 5 = 2 by omega]
    rfl
  · intro t c w h
    have := starve_holder h
    omega

/-! ### what holds -/

/-- **C114**, what holds of a single poll: if it is not disturbed, and not all places are in use, being opened or lost, the
request has a connection at its end or opens one. -/
theorem C114_poll_partial (N : Nat) (es : List PoolEv) (s : Pool) (h : Pool.new.run N es = some s) (r : Nat) (reg w : Bool)
    (hr : s.reqs[r]? = some ⟨.waiting reg, w⟩)
    (hroom : (Spec.inUse s).length + Spec.creating s + Spec.broken s < N) :
    (∃ s' c, s.run N [.pop r] = some s' ∧ s'.reqs[r]? = some ⟨.holding c, false⟩) ∨
      ∃ s', s.run N [.pop r, .load r s.items, .cas r] = some s' ∧ s'.reqs[r]? = some ⟨.creating, false⟩ := by
  have hi := (PoolInv.new N).run h
  obtain ⟨hlt, hget⟩ := List.getElem?_eq_some_iff.1 hr
  match hq : s.queue with
  | c :: rest =>
    obtain ⟨s', h1, h2, -⟩ := C39_handed_out N s r c rest reg w hr hq
    refine .inl ⟨s', c, ?_, h2⟩
    unfold Pool.run
    rw [h1]
    rfl
  | [] =>
    have hc := hi.count
    rw [hq, List.length_nil] at hc
    have hN : s.items < N := by omega
    right
    simp [Pool.run, Pool.step, PoolEv.req, hget, Pool.stepReq, hq, Pool.setReq, hlt, hN]

/-- and if all of them are, it goes on waiting, and the counter stays. -/
theorem C114_full_partial (N : Nat) (es : List PoolEv) (s : Pool) (h : Pool.new.run N es = some s) (r : Nat) (reg w : Bool)
    (hr : s.reqs[r]? = some ⟨.waiting reg, w⟩)
    (hfull : (Spec.inUse s).length + Spec.creating s + Spec.broken s = N) :
    ∃ s', s.run N [.pop r, .load r s.items] = some s' ∧ s'.items = s.items ∧ s'.queue = [] ∧
      s'.reqs[r]? = some ⟨if reg then .waiting true else .full, false⟩ := by
  have hi := (PoolInv.new N).run h
  obtain ⟨hlt, hget⟩ := List.getElem?_eq_some_iff.1 hr
  have hc := hi.count
  have hl := hi.limit
  have hq : s.queue = [] := List.length_eq_zero_iff.1 (by omega)
  have hN : s.items = N := by omega
  cases reg <;> simp [Pool.run, Pool.step, PoolEv.req, hget, Pool.stepReq, hq, Pool.setReq, hlt, hN]

/-- **C114**, what holds of finitely many tasks that use one connection at a time, as often as they like: as long as there
is a place that is not lost, each of them gets all its connections, if all are polled again and again. -/
theorem C114_finite_partial (N : Nat) (jobs : Nat → List HoldOp) (tasks : Finset Nat) (ht : ∀ i, i ∉ tasks → jobs i = [])
    (h1 : ∀ i, peak 0 (jobs i) ≤ 1) (ms : List HoldMove) (x : Nat → PoolHold) (m : Nat → Option HoldMove)
    (h : (PoolHold.started jobs).run N ms = some (x 0)) (hf : FairRun N x m) (hb : Spec.broken (x 0).pool < N) :
    ∃ T, ∀ t, T ≤ t → ∀ i, ((x t).task i).ended := by
  refine C113_fair N jobs tasks ht ms x m h hf ?_
  have : ∑ i ∈ tasks, (peak 0 (jobs i) - 1) = 0 := Finset.sum_eq_zero fun i _ => by
    have := h1 i
    omega
  omega

/-! ### examples -/

/-- the two first rounds: request 1 looks when request 2 has the connection, and when request 3 has it. -/
example : ((starve 0 0).run 1 [.request, .pop 2, .pop 1, .load 1 1, .put 2, .request, .pop 3, .pop 1, .load 1 1]).map
      (fun s => s.reqs.map (·.st)) = some [.gone, .waiting true, .gone, .holding 0] := by
  decide +kernel

/-- it would have been served had it looked a step earlier. -/
example : ((starve 0 0).run 1 [.request, .pop 1]).map (fun s => s.reqs.map (·.st)) =
    some [.gone, .holding 0, .waiting false] := by
  decide +kernel

/-- with a second place it opens a connection of its own. -/
example : ((Pool.new.run 2 [.request, .pop 0, .load 0 0, .cas 0, .created 0, .request]).bind fun s =>
      (s.run 2 [.pop 1, .load 1 s.items, .cas 1]).map fun s => s.reqs.map (·.st)) = some [.holding 0, .creating] := by
  decide +kernel

/-- three tasks that use one connection at a time, on one place. -/
example : ∀ i < 3, peak 0 ([[HoldOp.get, .drop 0], [.get, .drop 0, .get, .drop 0], [.get]].getD i []) ≤ 1 := by
  decide +kernel

end Verif

import Verif.Props.C114_Turn

/-!
# C114 — a request can starve whatever the size of the pool
-/

namespace Verif

open Spec (PoolForever Starved)

/-- the requests of a pool with `N` connections in round `n`, after `j` steps of it: request `N` waits, of the others those
before the `n`th have been served, and the next `N` have the connections. -/
def queueUp (N n j i : Nat) : Req :=
  if i = N then ⟨if j = 4 then .empty true else .waiting true, false⟩
  else
    let k := if i < N then i else i - 1
    if k < n ∨ (k = n ∧ 1 ≤ j) then ⟨.gone, false⟩
    else if k = n + N ∧ j = 2 then ⟨.waiting false, true⟩
    else ⟨.holding (k % N), false⟩

def starveAll (N n j : Nat) : Pool :=
  { items := N, queue := if j = 1 ∨ j = 2 then [n % N] else [], wakers := [N], born := N, lost := [],
    reqs := (List.range (n + N + 1 + if 2 ≤ j then 1 else 0)).map (queueUp N n j) }

/-- one gives the connection back, another request comes and takes it before request `N` looks again. -/
def starveAllMove (N n : Nat) : Nat → PoolEv
  | 0 => .put (if n < N then n else n + 1)
  | 1 => .request
  | 2 => .pop (n + N + 1)
  | 3 => .pop N
  | _ => .load N N

theorem set_map_range {A : Type} (L r : Nat) (f g : Nat → A) (q : A) (h1 : ∀ i, i < L → i ≠ r → f i = g i)
    (h2 : r < L → q = g r) : ((List.range L).map f).set r q = (List.range L).map g := by
  apply List.ext_getElem
  · simp
  · intro i hi hi'
    have hL : i < L := by simpa using hi'
    rw [List.getElem_set]
    split
    · rename_i h
      subst h
      simpa using h2 hL
    · rename_i h
      simpa using h1 i hL (fun e => h e.symm)

theorem starveAll_step (N n j : Nat) (hN : 0 < N) (hj : j < 5) :
    (starveAll N n j).step N (starveAllMove N n j) =
      some (if j < 4 then starveAll N n (j + 1) else starveAll N (n + 1) 0) := by
  match j, hj with
  | 0, _ =>
    have hq : queueUp N n 0 (if n < N then n else n + 1) = ⟨.holding (n % N), false⟩ := by
      unfold queueUp
      grind
    have hl : (if n < N then n else n + 1) < n + N + 1 := by split <;> omega
    simp only [starveAll, starveAllMove, Pool.step, PoolEv.req]
    simp [hl, hq, Pool.stepReq, Pool.setReq, hN]
    refine set_map_range _ _ _ _ _ ?_ ?_
    · intro i hi hne
      unfold queueUp
      split at hne <;> grind
    · intro _
      unfold queueUp
      grind
  | 1, _ =>
    simp only [starveAll, starveAllMove, Pool.step]
    simp only [show ¬ 2 ≤ 1 by decide, if_false, Nat.add_zero, show (2 ≤ 1 + 1) = True by simp, if_true,
      List.range_succ (n := n + N + 1), List.map_append, List.map_cons, List.map_nil, Nat.reduceAdd, or_true, true_or,
      show (1 : Nat) < 4 by decide]
    have h1 : (List.range (n + N + 1)).map (queueUp N n 1) = (List.range (n + N + 1)).map (queueUp N n 2) := by
      refine List.map_congr_left fun i hi => ?_
      rw [List.mem_range] at hi
      unfold queueUp
      grind
    have h2 : queueUp N n 2 (n + N + 1) = ⟨.waiting false, true⟩ := by
      unfold queueUp
      grind
    rw [h1, h2]
  | 2, _ =>
    have hq : queueUp N n 2 (n + N + 1) = ⟨.waiting false, true⟩ := by
      unfold queueUp
      grind
    simp only [starveAll, starveAllMove, Pool.step, PoolEv.req]
    simp [hq, Pool.stepReq, Pool.setReq]
    refine set_map_range _ _ _ _ _ ?_ ?_
    · intro i hi hne
      unfold queueUp
      grind
    · intro _
      have hm : (n + N) % N = n % N := Nat.add_mod_right n N
      unfold queueUp
      grind
  | 3, _ =>
    have hq : queueUp N n 3 N = ⟨.waiting true, false⟩ := by
      unfold queueUp
      grind
    simp only [starveAll, starveAllMove, Pool.step, PoolEv.req]
    simp [hq, Pool.stepReq, Pool.setReq, show N < n + N + 1 + 1 by omega]
    refine set_map_range _ _ _ _ _ ?_ ?_
    · intro i hi hne
      unfold queueUp
      grind
    · intro _
      unfold queueUp
      grind
  | 4, _ =>
    have hq : queueUp N n 4 N = ⟨.empty true, false⟩ := by
      unfold queueUp
      grind
    simp only [starveAll, starveAllMove, Pool.step, PoolEv.req]
    simp [hq, Pool.stepReq, Pool.setReq, show N < n + N + 1 + 1 by omega]
    rw [show n + 1 + N + 1 = n + N + 1 + 1 by omega]
    refine set_map_range _ _ _ _ _ ?_ ?_
    · intro i hi hne
      unfold queueUp
      grind
    · intro _
      unfold queueUp
      grind

/-- only the requests after the `n`th can have connections. -/
theorem starveAll_holder {N n j r c : Nat} {w : Bool} (hN : 0 < N)
    (h : (starveAll N n j).reqs[r]? = some ⟨.holding c, w⟩) :
    ∃ k, n ≤ k ∧ r = if k < N then k else k + 1 := by
  have h' : queueUp N n j r = ⟨.holding c, w⟩ := by
    simp only [starveAll, List.getElem?_map, Option.map_eq_some_iff] at h
    obtain ⟨a, ha, h⟩ := h
    obtain ⟨hl, he⟩ := List.getElem?_eq_some_iff.1 ha
    rw [List.getElem_range] at he
    rw [he]
    exact h
  unfold queueUp at h'
  by_cases hr : r = N
  · rw [if_pos hr] at h'
    split at h' <;> cases h'
  · rw [if_neg hr] at h'
    refine ⟨if r < N then r else r - 1, ?_, ?_⟩
    · by_contra hc
      simp only [Nat.not_le] at hc
      rw [if_pos (.inl hc)] at h'
      cases h'
    · grind

/-- `m` requests have got a connection each. -/
def openedAll (m : Nat) : Pool :=
  { items := m, queue := [], wakers := [], born := m, lost := [], reqs := (List.range m).map fun i => ⟨.holding i, false⟩ }

theorem openedAll_run (N m : Nat) (hm : m ≤ N) : ∃ es, Pool.new.run N es = some (openedAll m) := by
  induction m with
  | zero => exact ⟨[], rfl⟩
  | succ m ih =>
    obtain ⟨es, h⟩ := ih (by omega)
    refine ⟨es ++ [.request, .pop m, .load m m, .cas m, .created m], Pool.run_append h ?_⟩
    simp [openedAll, Pool.run, Pool.step, PoolEv.req, Pool.stepReq, Pool.setReq, List.range_succ, show m < N by omega]

/-- **C114 is violated** whatever the size of the pool: all its connections are open, everyone who has one gives it back,
one request is polled again and again, and never gets any. -/
theorem C114_every_violated (N : Nat) (hN : 0 < N) :
    ∃ s m r, PoolForever N s m ∧ (∀ t, ∃ t', t ≤ t' ∧ m t' = .pop r) ∧ Starved s r ∧ ∀ t, (s t).items = N := by
  refine ⟨fun t => starveAll N (t / 5) (t % 5), fun t => starveAllMove N (t / 5) (t % 5), N,
    { start := ?_, step := ?_, keeps := ?_, fresh := ?_, back := ?_ }, ?_, ?_, fun _ => rfl⟩
  · obtain ⟨es, h⟩ := openedAll_run N N (Nat.le_refl N)
    refine ⟨es ++ [.request, .pop N, .load N N, .register N, .pop N, .load N N], Pool.run_append h ?_⟩
    simp [openedAll, starveAll, Pool.run, Pool.step, PoolEv.req, Pool.stepReq, Pool.setReq, List.range_succ]
    refine ⟨fun i hi => ?_, ?_⟩
    · have hm : i % N = i := Nat.mod_eq_of_lt hi
      unfold queueUp
      grind
    · unfold queueUp
      grind
  · intro t
    rw [starveAll_step N _ _ hN (Nat.mod_lt _ (by decide))]
    split
    · rw [show (t + 1) / 5 = t / 5 by omega, show (t + 1) % 5 = t % 5 + 1 by omega]
    · rw [show (t + 1) / 5 = t / 5 + 1 by omega, show (t + 1) % 5 = 0 by omega]
  · intro t r
    unfold starveAllMove
    split <;> simp
  · intro t r k h
    unfold starveAllMove at h
    split at h <;> cases h
    rfl
  · intro t r c w h
    obtain ⟨k, hk, hr⟩ := starveAll_holder hN h
    by_cases hkt : t / 5 = k ∧ t % 5 ≠ 0
    · exfalso
      obtain ⟨rfl, h0⟩ := hkt
      obtain ⟨k', hk', hr'⟩ := starveAll_holder hN h
      have hq : (starveAll N (t / 5) (t % 5)).reqs[r]? = some ⟨.gone, false⟩ := by
        have hl : r < t / 5 + N + 1 + if 2 ≤ t % 5 then 1 else 0 := by
          have := (List.getElem?_eq_some_iff.1 h).1
          simpa [starveAll] using this
        simp only [starveAll, List.getElem?_map, List.getElem?_range hl, Option.map_some, Option.some.injEq]
        unfold queueUp
        grind
      rw [h] at hq
      cases hq
    · refine ⟨k * 5, by omega, ?_⟩
      show starveAllMove N (k * 5 / 5) (k * 5 % 5) = _
      rw [show k * 5 / 5 = k by omega, show k * 5 % 5 = 0 by omega, hr]
      rfl
  · intro t
    refine ⟨t * 5 + 3, by omega, ?_⟩
    show starveAllMove N _ ((t * 5 + 3) % 5) = _
    rw [show (t * 5 + 3) % 5 = 3 by omega]
    rfl
  · intro t c w h
    obtain ⟨k, -, hr⟩ := starveAll_holder hN h
    split at hr <;> omega

/-- two connections: the first twelve steps after both are open, the request 2 has not moved on. -/
example : ((starveAll 2 0 0).run 2 [.put 0, .request, .pop 3, .pop 2, .load 2 2, .put 1, .request, .pop 4, .pop 2, .load 2 2,
    .put 3, .request]).map (fun s => (s.queue, s.reqs.map (·.st))) =
    some ([0], [.gone, .gone, .waiting true, .gone, .holding 1, .waiting false]) := by decide +kernel

end Verif

import Verif.Props.C112_Fair
import Verif.Props.C115_Enough
import Verif.Spec.StoreWoken

/-!
# C112 — tasks store everything also under an executor that polls only what was woken, if there are places for all of them
-/

namespace Verif

open Spec (SqlServer PoolTasks PoolMove StorePool StoreJob StoreTask Tables FairTasks WokenTasks HasRoom)
open Spec.PoolTasks (isPoll reqState)

section

variable {N : Nat} {S : SqlServer} {rows : Tables} {jobs : Nat → List StoreJob} {x y : PoolTasks} {a : PoolMove}

/-- a move is at most one step of the pool. -/
theorem tasks_pool_step (hs : x.step N S a = some y) : y.pool = x.pool ∨ ∃ e, x.pool.step N e = some y.pool := by
  unfold PoolTasks.step at hs
  cases a with
  | ask i =>
    dsimp only at hs
    split at hs
    · obtain ⟨p, hp, rfl⟩ := Option.map_eq_some_iff.1 hs
      exact .inr ⟨_, hp⟩
    · cases hs
  | poll i e =>
    dsimp only at hs
    split at hs
    next r hr =>
      split at hs
      · obtain ⟨p, hp, rfl⟩ := Option.map_eq_some_iff.1 hs
        have : ∀ z : PoolTasks, (z.polled S i r).pool = z.pool := by
          intro z
          unfold PoolTasks.polled
          split <;> rfl
        rw [this]
        exact .inr ⟨_, hp⟩
      · cases hs
    · cases hs
  | next i =>
    dsimp only at hs
    split at hs
    · split at hs
      · obtain ⟨p, hp, rfl⟩ := Option.map_eq_some_iff.1 hs
        exact .inr ⟨_, hp⟩
      · cases hs
        exact .inl rfl
    · cases hs

theorem tasks_broken_mono (hs : x.step N S a = some y) : Spec.broken x.pool ≤ Spec.broken y.pool := by
  rcases tasks_pool_step hs with h | ⟨e, h⟩
  · rw [h]
  · exact broken_step h

/-! ### every request that has not ended is the one of a task -/

theorem countP_index (p : Req → Bool) (l : List Req) :
    l.countP p = ((Finset.range l.length).filter fun r => (l[r]?).any p = true).card := by
  induction l using List.reverseRecOn with
  | nil => rfl
  | append_singleton l q ih =>
    have e : (Finset.range l.length).filter (fun r => ((l ++ [q])[r]?).any p = true) =
        (Finset.range l.length).filter (fun r => (l[r]?).any p = true) := by
      refine Finset.filter_congr fun r hr => ?_
      rw [List.getElem?_append_left (Finset.mem_range.1 hr)]
    rw [List.countP_append, List.length_append, List.length_singleton, Finset.range_add_one, Finset.filter_insert, e,
      List.getElem?_concat_length, ih]
    by_cases hq : p q = true
    · rw [if_pos (by simpa using hq), Finset.card_insert_of_notMem (by simp)]
      simp [hq]
    · rw [if_neg (by simpa using hq)]
      simp [hq]

theorem PoolTogether.outstanding_le (h : PoolTogether N S rows jobs x) (tasks : Finset Nat)
    (ht : ∀ i, i ∉ tasks → jobs i = []) : Spec.outstanding x.pool ≤ tasks.card := by
  have hno : ∀ i, i ∉ tasks → x.store.task i = .ok ⟨[], none, []⟩ := by
    obtain ⟨sched, hsc, -⟩ := h.store
    obtain ⟨n, w, -, h2, -⟩ := AllWithin.go S rows jobs tasks ht sched
    rw [hsc]
    exact h2
  unfold Spec.outstanding
  rw [countP_index]
  refine Finset.card_le_card_of_surjOn (fun i => (x.req i).getD 0) fun r hr => ?_
  obtain ⟨-, hr⟩ := Finset.mem_filter.1 (Finset.mem_coe.1 hr)
  match hq : x.pool.reqs[r]? with
  | none => rw [hq] at hr; cases hr
  | some q =>
    rw [hq] at hr
    have hov : q.st.over = false := by
      obtain ⟨st, aw⟩ := q
      cases st <;> first | rfl | cases hr
    obtain ⟨i, hi⟩ := h.owned r q hq hov
    refine ⟨i, ?_, by simp [hi]⟩
    by_contra hit
    obtain ⟨q', -, hf⟩ := h.mine i r hi
    rw [hno i hit] at hf
    obtain ⟨st, aw⟩ := q'
    cases st <;> simp [ReqFits] at hf

theorem PoolTogether.hasRoom (h : PoolTogether N S rows jobs x) (tasks : Finset Nat) (ht : ∀ i, i ∉ tasks → jobs i = [])
    (hb : tasks.card + Spec.broken x.pool ≤ N) : HasRoom N x.pool := by
  have := h.outstanding_le tasks ht
  unfold HasRoom
  omega

theorem EnoughInv.move (hi : EnoughInv N x.pool) (hr : HasRoom N x.pool) (hs : x.step N S a = some y) :
    EnoughInv N y.pool := by
  rcases tasks_pool_step hs with h | ⟨e, h⟩
  · rw [h]
    exact hi
  · exact hi.step hr h

theorem tasks_run_broken : ∀ (ms : List PoolMove) (x y : PoolTasks), x.run N S ms = some y →
    Spec.broken x.pool ≤ Spec.broken y.pool
  | [], x, y, h => by
    cases h
    exact Nat.le_refl _
  | a :: ms, x, y, h => by
    obtain ⟨z, hz, hy⟩ := Option.bind_eq_some_iff.1 h
    exact (tasks_broken_mono hz).trans (tasks_run_broken ms z y hy)

theorem tasks_enough (tasks : Finset Nat) (ht : ∀ i, i ∉ tasks → jobs i = []) : ∀ (ms : List PoolMove) (x y : PoolTasks),
    PoolTogether N S rows jobs x → EnoughInv N x.pool → x.run N S ms = some y →
    tasks.card + Spec.broken y.pool ≤ N → EnoughInv N y.pool
  | [], x, y, _, hi, h, _ => by
    cases h
    exact hi
  | a :: ms, x, y, ht', hi, h, hb => by
    have hxb := tasks_run_broken _ x y h
    obtain ⟨z, hz, hy⟩ := Option.bind_eq_some_iff.1 h
    exact tasks_enough tasks ht ms z y (ht'.step hz) (hi.move (ht'.hasRoom tasks ht (by omega)) hz) hy hb

theorem EnoughInv.not_asleep (hi : EnoughInv N x.pool) (i : Nat) : ¬ x.Asleep i := by
  rintro ⟨r, reg, -, hq⟩
  have := ((hi.lively _ (List.mem_of_getElem? hq)).2.1 reg rfl).2
  cases this

end

/-- **C112**, places for all: while there are at least as many places left as there are tasks, no task ever waits for another
to wake it: no waker is registered, and none is asleep. -/
theorem C112_awake_partial (N : Nat) (S : SqlServer) (jobs : Nat → List StoreJob) (tasks : Finset Nat)
    (ht : ∀ i, i ∉ tasks → jobs i = []) (rows : Tables) (ms : List PoolMove) (x : PoolTasks)
    (h : (PoolTasks.started rows jobs).run N S ms = some x) (hb : tasks.card + Spec.broken x.pool ≤ N) :
    x.pool.wakers = [] ∧ ∀ i, ¬ x.Asleep i := by
  have hi := tasks_enough tasks ht ms _ x (PoolTogether.started N S rows jobs) (EnoughInv.new N) h hb
  exact ⟨hi.wakers, hi.not_asleep⟩

theorem Spec.WokenTasks.enough {N : Nat} {S : SqlServer} {rows : Tables} {jobs : Nat → List StoreJob} {x : Nat → PoolTasks}
    {m : Nat → Option PoolMove} (tasks : Finset Nat) (ht : ∀ i, i ∉ tasks → jobs i = [])
    (h0 : PoolTogether N S rows jobs (x 0)) (hi : EnoughInv N (x 0).pool) (hb : tasks.card + Spec.broken (x 0).pool ≤ N)
    (idle : ∀ t, m t = none → x (t + 1) = x t) (step : ∀ t a, m t = some a → (x t).step N S a = some (x (t + 1)))
    (keeps : ∀ t a, m t = some a → a.keepsOn = true) (t : Nat) :
    PoolTogether N S rows jobs (x t) ∧ EnoughInv N (x t).pool ∧ Spec.broken (x t).pool = Spec.broken (x 0).pool := by
  induction t with
  | zero => exact ⟨h0, hi, rfl⟩
  | succ t ih =>
    obtain ⟨h1, h2, h3⟩ := ih
    match hm : m t with
    | none =>
      rw [idle t hm]
      exact ⟨h1, h2, h3⟩
    | some a =>
      have hs := step t a hm
      exact ⟨h1.step hs, h2.move (h1.hasRoom tasks ht (by omega)) hs, (tasks_broken hs (keeps t a hm)).trans h3⟩

/-- **C112**, places for all: also under an executor that polls only tasks that were woken, in every execution from any state
the tasks have got into, in which every task that has not ended and is not asleep is polled, and from now on every connection
can be opened and nobody gives up waiting, all tasks end — with their ids, or with an error of the server.  Missing: pools
with fewer places than tasks, for which it is false (`C112_hang_violated`). -/
theorem C112_enough_partial (N : Nat) (S : SqlServer) (jobs : Nat → List StoreJob) (tasks : Finset Nat) (hne : tasks.Nonempty)
    (ht : ∀ i, i ∉ tasks → jobs i = []) (rows : Tables) (ms : List PoolMove) (x : Nat → PoolTasks)
    (m : Nat → Option PoolMove) (h : (PoolTasks.started rows jobs).run N S ms = some (x 0)) (hw : WokenTasks N S x m)
    (hb : tasks.card + Spec.broken (x 0).pool ≤ N) :
    ∃ T, ∀ t, T ≤ t → (x t).store = (x T).store ∧ ∀ i, ((x t).store.outcome i).isSome = true := by
  have hc := hne.card_pos
  have hi := tasks_enough tasks ht ms _ (x 0) (PoolTogether.started N S rows jobs) (EnoughInv.new N) h hb
  have h0 := (PoolTogether.started N S rows jobs).run h
  refine C112_fair_partial N S jobs tasks ht rows ms x m h ⟨hw.idle, hw.step, hw.keeps, hw.fresh, fun t i ho => ?_⟩ (by omega)
  exact hw.fair t i ho ((Spec.WokenTasks.enough tasks ht h0 hi hb hw.idle hw.step hw.keeps t).2.1.not_asleep i)

/-- With places for all, executions in which every task is polled again and again are of this kind. -/
theorem Spec.FairTasks.woken {N : Nat} {S : SqlServer} {jobs : Nat → List StoreJob} {rows : Tables} {x : Nat → PoolTasks}
    {m : Nat → Option PoolMove} (tasks : Finset Nat) (ht : ∀ i, i ∉ tasks → jobs i = [])
    (h : x 0 = PoolTasks.started rows jobs) (hf : FairTasks N S x m) (hb : tasks.card ≤ N) : WokenTasks N S x m := by
  have e0 : Spec.broken (x 0).pool = 0 := by rw [h]; rfl
  have all := Spec.WokenTasks.enough tasks ht (h ▸ PoolTogether.started N S rows jobs) (by rw [h]; exact EnoughInv.new N)
    (by rw [e0]; exact hb) hf.idle hf.step hf.keeps
  refine ⟨hf.idle, hf.step, hf.keeps, hf.fresh, fun t a hm => ?_, fun t i ho _ => hf.fair t i ho⟩
  unfold PoolTasks.mayMove
  split
  next i e =>
    unfold Pool.allowed
    split
    next r =>
      have hs := hf.step t _ hm
      unfold PoolTasks.step at hs
      dsimp only at hs
      split at hs
      next r' hr =>
        split at hs
        · obtain ⟨p, hp, -⟩ := Option.map_eq_some_iff.1 hs
          rcases Pool.step_cases hp with h' | ⟨⟨st, aw⟩, hq, hst⟩
          · cases h'
          · have hq' : (x t).pool.reqs[r]? = some ⟨st, aw⟩ := hq
            rw [hq']
            cases st <;> simp only [Pool.stepReq, reduceCtorEq] at hst
            exact (((all t).2.1.lively _ (List.mem_of_getElem? hq')).2.1 _ rfl).2
        · cases hs
      · cases hs
    · rfl
  · rfl

namespace C112

/-- the tasks of `C112_PoolFinish` with three places: each opens a connection of its own … -/
def enoughMoves : List PoolMove :=
  [.ask 0, .ask 1, .ask 2, .poll 0 (.pop 0), .poll 1 (.pop 1), .poll 0 (.load 0 0), .poll 0 (.cas 0), .poll 1 (.load 1 1),
    .poll 1 (.cas 1), .poll 2 (.pop 2), .poll 2 (.load 2 2), .poll 2 (.cas 2), .poll 1 (.created 1), .poll 2 (.created 2),
    .next 1, .poll 0 (.created 0), .next 0, .next 2, .next 0, .next 1, .next 0, .next 1, .next 2]

/-- … and all end, with polls only of what was woken. -/
example : ((PoolTasks.started C66.empty.rows C107.jobs).runExec 3 C66.server enoughMoves).map
    (fun x => ([0, 1, 2].map fun i => (x.store.outcome i).isSome, x.pool.queue, x.pool.wakers)) =
      some ([true, true, true], [2, 0, 1], []) := by
  decide +kernel

/-- an execution as in `C112_enough_partial`. -/
example : ∃ x m, WokenTasks 3 C66.server x m ∧ x 0 = PoolTasks.started C66.empty.rows C107.jobs := by
  have hj : ∀ i, i ∉ Finset.range 3 → C107.jobs i = [] := fun i hi => by
    rw [Finset.mem_range] at hi
    match i with
    | i + 3 => rfl
  obtain ⟨x, m, hf, h0⟩ := Spec.FairTasks.of_moves (N := 3) (S := C66.server) enoughMoves
      (PoolTasks.started C66.empty.rows C107.jobs) (by decide +kernel) fun z hz i => by
    by_cases hi : i < 3
    · have h : ((PoolTasks.started C66.empty.rows C107.jobs).run 3 C66.server enoughMoves).map
          (fun x => [0, 1, 2].map fun i => (x.store.outcome i).isSome) = some [true, true, true] := by decide +kernel
      rw [hz] at h
      simp only [Option.map_some, List.map_cons, List.map_nil, Option.some.injEq, List.cons.injEq, and_true] at h
      match i, hi with
      | 0, _ => exact h.1
      | 1, _ => exact h.2.1
      | 2, _ => exact h.2.2
    · obtain ⟨sched, hsc, -⟩ := C112_store _ _ _ _ _ _ hz
      obtain ⟨n, w, -, h2, -⟩ := AllWithin.go C66.server C66.empty.rows C107.jobs (Finset.range 3) hj sched
      rw [hsc]
      unfold StorePool.outcome
      rw [h2 i (by rw [Finset.mem_range]; exact hi)]
      rfl
  exact ⟨x, m, hf.woken (Finset.range 3) hj h0 (by simp), h0⟩

end C112

end Verif

import Verif.Props.C112_PoolTasks

/-!
# C112 — the tasks can always come to their end, and a task can be left waiting for ever
-/

namespace Verif

open Spec (SqlServer PoolTasks PoolMove StorePool StoreJob StoreTask Tables)
open Spec.PoolTasks (isPoll reqState)

namespace PoolTasks

/-- the next move and what comes after it. -/
theorem run_cons {N : Nat} {S : SqlServer} {x y z : PoolTasks} {m : PoolMove} {ms : List PoolMove}
    (h : x.step N S m = some y) (h2 : y.run N S ms = some z) : x.run N S (m :: ms) = some z := by
  rw [PoolTasks.run, h]
  exact h2

theorem run_then {N : Nat} {S : SqlServer} {x y z : PoolTasks} {ms ms' : List PoolMove}
    (h : x.run N S ms = some y) (h2 : y.run N S ms' = some z) : x.run N S (ms ++ ms') = some z := by
  induction ms generalizing x with
  | nil => cases h; exact h2
  | cons m ms ih =>
    unfold PoolTasks.run at h
    obtain ⟨w, h3, h4⟩ := Option.bind_eq_some_iff.1 h
    exact run_cons h3 (ih h4)

end PoolTasks

/-- there are moves that change the store by one turn, and lose no place in the pool. -/
def Advances (N : Nat) (S : SqlServer) (x : PoolTasks) : Prop :=
  ∃ ms y, x.run N S ms = some y ∧ Spec.broken y.pool = Spec.broken x.pool ∧
    ∃ i k, y.store = x.store.turn S (i, k) ∧ y.store ≠ x.store

theorem Advances.after {N : Nat} {S : SqlServer} {x y : PoolTasks} {m : PoolMove} (hs : x.step N S m = some y)
    (hst : y.store = x.store) (hb : Spec.broken y.pool = Spec.broken x.pool) (h : Advances N S y) : Advances N S x := by
  obtain ⟨ms, z, h1, h2, i, k, h3, h4⟩ := h
  exact ⟨m :: ms, z, PoolTasks.run_cons hs h1, h2.trans hb, i, k, hst ▸ h3, hst ▸ h4⟩

theorem broken_set {l : List Req} {r : Nat} {q q' : Req} (h : l[r]? = some q) (hq : Spec.isBroken q = Spec.isBroken q') :
    (l.set r q').countP Spec.isBroken = l.countP Spec.isBroken := by
  obtain ⟨l1, l2, h1, h2⟩ := set_split h
  rw [h2, h1]
  simp only [List.countP_append, List.countP_cons, hq]

/-- the turn of a task that is about to take a connection that nobody holds changes something. -/
theorem turn_takes {S : SqlServer} {x : StorePool} {i k : Nat} {ids : List UInt64} {j : StoreJob} {rest : List StoreJob}
    (ht : x.task i = .ok ⟨ids, none, j :: rest⟩) (hk : x.held k = none) : x.turn S (i, k) ≠ x := by
  intro heq
  unfold StorePool.turn at heq
  dsimp only at heq
  rw [ht] at heq
  dsimp only at heq
  rw [if_pos hk] at heq
  have := congrArg (fun y => y.task i) heq
  dsimp only at this
  rw [if_pos rfl, ht] at this
  cases this

/-- … and so does the turn of a task with a connection. -/
theorem turn_works {S : SqlServer} {x : StorePool} {i k k' : Nat} {ids : List UInt64} {j : StoreJob}
    {p : Spec.Script UInt64} {rest : List StoreJob} (ht : x.task i = .ok ⟨ids, some (k', j, p), rest⟩) :
    x.turn S (i, k) ≠ x := by
  intro heq
  unfold StorePool.turn at heq
  dsimp only at heq
  rw [ht] at heq
  match p with
  | .done id =>
    have := congrArg (fun y => y.served.length) heq
    simp at this
  | .stmt s f =>
    dsimp only at heq
    split at heq
    · have := congrArg (fun y => y.served.length) heq
      simp at this
    · have := congrArg (fun y => y.hist.length) heq
      simp at this

section

variable {N : Nat} {S : SqlServer} {rows : Tables} {jobs : Nat → List StoreJob} {x : PoolTasks}

/-- a poll after which the request has a connection. -/
theorem PoolTogether.gets (h : PoolTogether N S rows jobs x) {i r k : Nat} {e : PoolEv} {q : Req} {w : Bool} {p : Pool}
    (hr : x.req i = some r) (he : e.req = r) (hp : isPoll e = true) (hs : x.pool.step N e = some p)
    (hq : x.pool.reqs[r]? = some q) (hb : Spec.isBroken q = false)
    (hset : p.reqs = x.pool.reqs.set r { st := .holding k, awake := w }) : Advances N S x := by
  subst he
  have hlen := (List.getElem?_eq_some_iff.1 hq).1
  have hnew : p.reqs[e.req]? = some { st := .holding k, awake := w } := by rw [hset]; simp [hlen]
  have hfree := h.free hp hs hnew
  have hmove : x.step N S (.poll i e) = some { x with pool := p, store := x.store.turn S (i, k) } := by
    unfold PoolTasks.step
    dsimp only
    rw [hr]
    dsimp only
    rw [if_pos ⟨rfl, hp⟩, hs, Option.map_some]
    unfold PoolTasks.polled reqState
    dsimp only
    rw [hnew]
    rfl
  have hfit := h.mine i _ hr
  obtain ⟨q2, hq2, hm⟩ := hfit
  rw [hq] at hq2
  injection hq2 with hq2
  subst hq2
  obtain ⟨q3, _, hq3, -, -, hnh, hn1, hn2, hn3⟩ := step_poll hp hs
  rw [hq] at hq3
  injection hq3 with hq3
  subst hq3
  have htask : ∃ ids j rest, x.store.task i = .ok ⟨ids, none, j :: rest⟩ := by
    revert hnh hn1 hn2 hn3 hm
    cases q.st with
    | holding k => intro _ hnh; exact absurd rfl (hnh k)
    | failed => intro hm; exact hm.elim
    | dropped => intro hm; exact hm.elim
    | gone => intro hm; exact hm.elim
    | _ => intro hm _ _ _ _; exact hm
  obtain ⟨ids, j, rest, ht⟩ := htask
  refine ⟨[.poll i e], _, PoolTasks.run_cons hmove rfl, ?_, i, k, rfl, turn_takes ht hfree⟩
  show p.reqs.countP _ = x.pool.reqs.countP _
  rw [hset]
  exact broken_set hq (by rw [hb]; rfl)

/-- a poll after which the request goes on waiting. -/
theorem PoolTogether.waits (h : PoolTogether N S rows jobs x) {i r : Nat} {e : PoolEv} {q q' : Req} {p : Pool}
    (hr : x.req i = some r) (he : e.req = r) (hp : isPoll e = true) (hs : x.pool.step N e = some p)
    (hq : x.pool.reqs[r]? = some q) (hb : Spec.isBroken q = false) (hset : p.reqs = x.pool.reqs.set r q')
    (hn : ∀ k, q'.st ≠ .holding k) (ho : q'.st.over = false)
    (hgo : PoolTogether N S rows jobs { x with pool := p } → p.reqs[r]? = some q' → Advances N S { x with pool := p }) :
    Advances N S x := by
  subst he
  have hlen := (List.getElem?_eq_some_iff.1 hq).1
  have hnew : p.reqs[e.req]? = some q' := by rw [hset]; simp [hlen]
  have hmove : x.step N S (.poll i e) = some { x with pool := p } := by
    unfold PoolTasks.step
    dsimp only
    rw [hr]
    dsimp only
    rw [if_pos ⟨rfl, hp⟩, hs, Option.map_some]
    unfold PoolTasks.polled reqState
    dsimp only
    rw [hnew]
    obtain ⟨st, w⟩ := q'
    cases st with
    | holding k => exact absurd rfl (hn k)
    | failed => cases ho
    | dropped => cases ho
    | gone => cases ho
    | _ => rfl
  refine Advances.after hmove rfl ?_ (hgo (h.step hmove) hnew)
  show p.reqs.countP _ = x.pool.reqs.countP _
  rw [hset]
  refine broken_set hq ?_
  rw [hb]
  obtain ⟨st, w⟩ := q'
  cases st <;> first | rfl | cases ho

theorem pool_step {s p : Pool} {q : Req} (e : PoolEv) (he : decide (e = .request) = false) (hq : s.reqs[e.req]? = some q)
    (h : s.stepReq N e.req q e = some p) : s.step N e = some p := by
  cases e with
  | request => simp at he
  | _ => unfold Pool.step; dsimp only; rw [hq]; exact h

/-- a connection being opened for a task. -/
theorem PoolTogether.of_creating (h : PoolTogether N S rows jobs x) {i r : Nat} {w : Bool} (hr : x.req i = some r)
    (hq : x.pool.reqs[r]? = some { st := .creating, awake := w }) : Advances N S x :=
  h.gets (e := .created r) hr rfl rfl (pool_step (.created r) rfl hq rfl) hq rfl rfl

/-- a place for a connection that a task is about to take. -/
theorem PoolTogether.of_loaded (h : PoolTogether N S rows jobs x) {i r : Nat} {reg w : Bool} (hr : x.req i = some r)
    (hq : x.pool.reqs[r]? = some { st := .loaded reg x.pool.items, awake := w }) : Advances N S x := by
  have hs : x.pool.step N (.cas r) = some
      ({ x.pool with items := x.pool.items + 1 }.setReq r { st := .creating, awake := w }) :=
    pool_step (.cas r) rfl hq (by simp [Pool.stepReq, PoolEv.req])
  exact h.waits (q' := { st := .creating, awake := w }) hr rfl rfl hs hq rfl rfl (by simp) rfl
    fun h' hnew => h'.of_creating hr hnew

theorem PoolTogether.of_empty (h : PoolTogether N S rows jobs x) {i r : Nat} {reg w : Bool} (hr : x.req i = some r)
    (hi : x.pool.items < N) (hq : x.pool.reqs[r]? = some { st := .empty reg, awake := w }) : Advances N S x := by
  have hs : x.pool.step N (.load r x.pool.items) = some
      (x.pool.setReq r { st := .loaded reg x.pool.items, awake := w }) :=
    pool_step (.load r x.pool.items) rfl hq (by simp [Pool.stepReq, PoolEv.req, hi])
  exact h.waits (q' := { st := .loaded reg x.pool.items, awake := w }) hr rfl rfl hs hq rfl rfl (by simp) rfl
    fun h' hnew => h'.of_loaded hr hnew

/-- a task that waits while there is an idle connection or a place for a new one. -/
theorem PoolTogether.of_waiting (h : PoolTogether N S rows jobs x) {i r : Nat} {reg w : Bool} (hr : x.req i = some r)
    (hi : x.pool.queue = [] → x.pool.items < N) (hq : x.pool.reqs[r]? = some { st := .waiting reg, awake := w }) :
    Advances N S x := by
  match hqu : x.pool.queue with
  | k :: rest =>
    have hs : x.pool.step N (.pop r) = some
        ({ x.pool with queue := rest }.setReq r { st := .holding k, awake := false }) :=
      pool_step (.pop r) rfl hq (by simp [Pool.stepReq, PoolEv.req, hqu])
    exact h.gets hr rfl rfl hs hq rfl rfl
  | [] =>
    have hs : x.pool.step N (.pop r) = some (x.pool.setReq r { st := .empty reg, awake := false }) :=
      pool_step (.pop r) rfl hq (by simp [Pool.stepReq, PoolEv.req, hqu])
    exact h.waits (q' := { st := .empty reg, awake := false }) hr rfl rfl hs hq rfl rfl (by simp) rfl
      fun h' hnew => h'.of_empty hr (hi hqu) hnew

theorem PoolTogether.of_full (h : PoolTogether N S rows jobs x) {i r : Nat} {w : Bool} (hr : x.req i = some r)
    (hi : x.pool.queue = [] → x.pool.items < N) (hq : x.pool.reqs[r]? = some { st := .full, awake := w }) :
    Advances N S x := by
  have hs : x.pool.step N (.register r) = some
      ({ x.pool with wakers := x.pool.wakers ++ [r] }.setReq r { st := .waiting true, awake := true }) :=
    pool_step (.register r) rfl hq rfl
  exact h.waits (q' := { st := .waiting true, awake := true }) hr rfl rfl hs hq rfl rfl (by simp) rfl
    fun h' hnew => h'.of_waiting hr hi hnew

/-- a request that is not over leads on, if there is an idle connection or a place for a new one. -/
theorem PoolTogether.of_request (h : PoolTogether N S rows jobs x) {i r : Nat} {q : Req} (hr : x.req i = some r)
    (hi : x.pool.queue = [] → x.pool.items < N) (hq : x.pool.reqs[r]? = some q) (ho : q.st.over = false)
    (hn : ∀ k, q.st ≠ .holding k) : Advances N S x := by
  obtain ⟨st, w⟩ := q
  cases st with
  | waiting reg => exact h.of_waiting hr hi hq
  | empty reg =>
    by_cases hlt : x.pool.items < N
    · exact h.of_empty hr hlt hq
    · cases reg with
      | true =>
        have hs : x.pool.step N (.load r x.pool.items) = some (x.pool.setReq r { st := .waiting true, awake := w }) :=
          pool_step (.load r x.pool.items) rfl hq (by simp [Pool.stepReq, PoolEv.req, hlt])
        exact h.waits (q' := { st := .waiting true, awake := w }) hr rfl rfl hs hq rfl rfl (by simp) rfl
          fun h' hnew => h'.of_waiting hr hi hnew
      | false =>
        have hs : x.pool.step N (.load r x.pool.items) = some (x.pool.setReq r { st := .full, awake := w }) :=
          pool_step (.load r x.pool.items) rfl hq (by simp [Pool.stepReq, PoolEv.req, hlt])
        exact h.waits (q' := { st := .full, awake := w }) hr rfl rfl hs hq rfl rfl (by simp) rfl
          fun h' hnew => h'.of_full hr hi hnew
  | loaded reg k =>
    by_cases hk : x.pool.items = k
    · subst hk
      exact h.of_loaded hr hq
    · have hs : x.pool.step N (.cas r) = some (x.pool.setReq r { st := .waiting reg, awake := true }) :=
        pool_step (.cas r) rfl hq (by simp [Pool.stepReq, PoolEv.req, hk])
      exact h.waits (q' := { st := .waiting reg, awake := true }) hr rfl rfl hs hq rfl rfl (by simp) rfl
        fun h' hnew => h'.of_waiting hr hi hnew
  | full => exact h.of_full hr hi hq
  | creating => exact h.of_creating hr hq
  | holding k => exact absurd rfl (hn k)
  | failed => cases ho
  | dropped => cases ho
  | gone => cases ho

/-- a task with a connection. -/
theorem PoolTogether.of_busy (h : PoolTogether N S rows jobs x) {i k : Nat} {ids : List UInt64} {j : StoreJob}
    {p : Spec.Script UInt64} {rest : List StoreJob} (ht : x.store.task i = .ok ⟨ids, some (k, j, p), rest⟩) :
    Advances N S x := by
  obtain ⟨sched, hsc, -⟩ := h.store
  have hk : x.store.held k = some i := by
    rw [hsc] at ht ⊢
    exact (holders S jobs rows sched k i).2 ⟨_, _, _, _, ht⟩
  obtain ⟨r, w, hr, hq⟩ := (h.holds k i).1 hk
  by_cases hend : (x.store.turn S (i, k)).held k = none
  · have hput : ∃ s', x.pool.step N (.put r) = some s' := by
      by_cases hl : x.pool.queue.length < N
      · exact ⟨_, pool_step (.put r) rfl hq (if_pos hl)⟩
      · exact ⟨_, pool_step (.put r) rfl hq (if_neg hl)⟩
    obtain ⟨s', hs'⟩ := hput
    refine ⟨[.next i], { x with pool := s', store := x.store.turn S (i, k) }.setReq i none,
      PoolTasks.run_cons ?_ rfl, ?_, i, k, rfl, turn_works ht⟩
    · unfold PoolTasks.step
      dsimp only
      rw [ht, hr]
      dsimp only
      rw [if_pos hend, hs']
      rfl
    · obtain ⟨q, q', k', hq0, hqk, hset, hq'g, -⟩ := step_put hs'
      show s'.reqs.countP _ = x.pool.reqs.countP _
      rw [hset]
      refine broken_set hq0 ?_
      unfold Spec.isBroken
      rw [hqk, hq'g]
      rfl
  · refine ⟨[.next i], { x with store := x.store.turn S (i, k) }, PoolTasks.run_cons ?_ rfl, rfl, i, k, rfl, turn_works ht⟩
    unfold PoolTasks.step
    dsimp only
    rw [ht, hr]
    dsimp only
    rw [if_neg hend]

/-- as long as a task has not ended, somebody can get on. -/
theorem PoolTogether.advances (h : PoolTogether N S rows jobs x) (hb : Spec.broken x.pool < N) {i : Nat}
    (hi : x.store.outcome i = none) : Advances N S x := by
  by_cases hbusy : ∃ i ids k j p rest, x.store.task i = .ok ⟨ids, some (k, j, p), rest⟩
  · obtain ⟨i, ids, k, j, p, rest, ht⟩ := hbusy
    exact h.of_busy ht
  · have hnone : ∀ (r k : Nat) (w : Bool), x.pool.reqs[r]? ≠ some { st := .holding k, awake := w } := by
      intro r k w hq
      obtain ⟨i', hi'⟩ := h.owned r _ hq rfl
      obtain ⟨q, hq', hm⟩ := h.mine i' r hi'
      rw [hq] at hq'
      injection hq' with hq'
      subst hq'
      obtain ⟨ids, j, p, rest, ht⟩ := hm
      exact hbusy ⟨_, _, _, _, _, _, ht⟩
    by_cases hcr : ∃ (r : Nat) (w : Bool), x.pool.reqs[r]? = some { st := .creating, awake := w }
    · obtain ⟨r, w, hq⟩ := hcr
      obtain ⟨i', hi'⟩ := h.owned r _ hq rfl
      exact h.of_creating hi' hq
    · have hroom : x.pool.queue = [] → x.pool.items < N := by
        intro hqu
        obtain ⟨es, hes⟩ := h.pool
        have hc := ((PoolInv.new N).run hes).count
        have h1 : Spec.inUse x.pool = [] := by
          unfold Spec.inUse
          rw [List.filterMap_eq_nil_iff]
          rintro ⟨st, w⟩ hq
          obtain ⟨r, hr⟩ := List.getElem?_of_mem hq
          cases st with
          | holding k => exact absurd hr (hnone r k w)
          | _ => rfl
        have h2 : Spec.creating x.pool = 0 := by
          unfold Spec.creating
          rw [List.countP_eq_zero]
          rintro ⟨st, w⟩ hq
          obtain ⟨r, hr⟩ := List.getElem?_of_mem hq
          cases st with
          | creating => exact absurd ⟨r, w, hr⟩ hcr
          | _ => simp [Spec.isCreating]
        rw [h1, h2, hqu] at hc
        simp at hc
        omega
      have htask : ∃ ids j rest, x.store.task i = .ok ⟨ids, none, j :: rest⟩ := by
        unfold StorePool.outcome at hi
        match ht : x.store.task i with
        | .error e => rw [ht] at hi; cases hi
        | .ok ⟨ids, none, []⟩ => rw [ht] at hi; cases hi
        | .ok ⟨ids, none, j :: rest⟩ => exact ⟨_, _, _, rfl⟩
        | .ok ⟨ids, some (k, j, p), rest⟩ => exact absurd ⟨_, _, _, _, _, _, ht⟩ hbusy
      obtain ⟨ids, j, rest, ht⟩ := htask
      match hr : x.req i with
      | some r =>
        obtain ⟨q, hq, hm⟩ := h.mine i r hr
        refine h.of_request hr hroom hq ?_ ?_
        · obtain ⟨st, w⟩ := q
          cases st <;> first | rfl | exact hm.elim
        · rintro k hk
          obtain ⟨st, w⟩ := q
          dsimp only at hk
          subst hk
          exact hnone r k w hq
      | none =>
        have hmove : x.step N S (.ask i) = some
            (PoolTasks.setReq { x with pool := { x.pool with reqs := x.pool.reqs ++ [Req.mk (.waiting false) true] } } i
              (some x.pool.reqs.length)) := by
          unfold PoolTasks.step
          dsimp only
          rw [ht, hr]
          rfl
        refine Advances.after hmove rfl ?_ ((h.step hmove).of_waiting (i := i) (r := x.pool.reqs.length) (reg := false)
          (w := true) ?_ hroom ?_)
        · show (x.pool.reqs ++ _).countP _ = x.pool.reqs.countP _
          rw [List.countP_append]
          rfl
        · exact if_pos rfl
        · exact last_get _ _

end

/-- **C112.** Whatever has happened, as long as not all of the `N` places of the pool have been lost to connections that
could not be opened, the tasks can come to their end: polls that make every one of them end are possible, and none of
them loses a place.  (What is missing: an executor that polls only tasks that were woken need not make these polls, see
`C112_hang_violated`.) -/
theorem C112_finish_partial (N : Nat) (S : SqlServer) (jobs : Nat → List StoreJob) (tasks : Finset Nat)
    (ht : ∀ i, i ∉ tasks → jobs i = []) (rows : Tables) (ms : List PoolMove) (x : PoolTasks)
    (h : (PoolTasks.started rows jobs).run N S ms = some x) (hb : Spec.broken x.pool < N) :
    ∃ ms' y, x.run N S ms' = some y ∧ Spec.broken y.pool = Spec.broken x.pool ∧
      ∀ i, (y.store.outcome i).isSome = true := by
  have hi := (PoolTogether.started N S rows jobs).run h
  have hm : ∃ m : Nat → Nat, (∀ i, LeftWithin (m i) (x.store.task i)) ∧
      ∀ i, i ∉ tasks → x.store.task i = .ok ⟨[], none, []⟩ := by
    obtain ⟨sched, hsc, -⟩ := hi.store
    rw [hsc]
    clear hsc
    induction sched using List.reverseRecOn with
    | nil =>
      refine ⟨fun i => Spec.jobsModels (jobs i) + 2 * (jobs i).length, fun i => Nat.le_refl _, fun i hi => ?_⟩
      show Except.ok _ = _
      rw [ht i hi]
    | append_singleton sched t ih =>
      obtain ⟨m, h1, h2⟩ := ih
      obtain ⟨i, k⟩ := t
      rw [← store_go_turn rfl]
      generalize (StorePool.started rows jobs).go S sched = z at h1 h2 ⊢
      by_cases hne : z.turn S (i, k) = z
      · rw [hne]; exact ⟨m, h1, h2⟩
      · obtain ⟨⟨m', hm, hw⟩, ho⟩ := turn_less S z i k (m i) (h1 i) hne
        refine ⟨fun n => if n = i then m' else m n, fun n => ?_, fun n hn => ?_⟩
        · dsimp only
          by_cases hni : n = i
          · subst hni
            rw [if_pos rfl]
            exact hw
          · rw [if_neg hni, ho n hni]
            exact h1 n
        · have hni : n ≠ i := by
            rintro rfl
            refine hne (turn_idle S z n k ?_)
            unfold StorePool.outcome
            rw [h2 n hn]
            rfl
          rw [ho n hni]
          exact h2 n hn
  obtain ⟨m, h1, h2⟩ := hm
  clear h
  generalize hn : ∑ i ∈ tasks, m i = n
  induction n using Nat.strong_induction_on generalizing x m with
  | _ n ih =>
    by_cases hall : ∀ i, (x.store.outcome i).isSome = true
    · exact ⟨[], x, rfl, rfl, hall⟩
    · obtain ⟨i0, hi0⟩ := not_forall.1 hall
      have hi0' : x.store.outcome i0 = none := by simpa using hi0
      obtain ⟨ms1, y, hy, hby, i, k, e, hne⟩ := hi.advances hb hi0'
      rw [e] at hne
      obtain ⟨⟨m', hm, hw⟩, ho⟩ := turn_less S x.store i k (m i) (h1 i) hne
      rw [← e] at hw ho
      have hit : i ∈ tasks := by
        by_contra hit
        refine hne (turn_idle S x.store i k ?_)
        unfold StorePool.outcome
        rw [h2 i hit]
        rfl
      have hlt : ∑ n ∈ tasks, (if n = i then m' else m n) < ∑ n ∈ tasks, m n := by
        refine Finset.sum_lt_sum (fun n _ => ?_) ⟨i, hit, ?_⟩
        · split
          next h => subst h; omega
          · exact Nat.le_refl _
        · rw [if_pos rfl]
          exact hm
      obtain ⟨ms2, z, hz, hbz, hend⟩ := ih _ (hn ▸ hlt) y (hby ▸ hb) (hi.run hy) (fun n => if n = i then m' else m n)
        (fun n => by
          by_cases hni : n = i
          · subst hni
            rw [if_pos rfl]
            exact hw
          · rw [if_neg hni, ho n hni]
            exact h1 n)
        (fun n hn => by
          have hni : n ≠ i := fun h => hn (h ▸ hit)
          rw [ho n hni]
          exact h2 n hn) rfl
      exact ⟨ms1 ++ ms2, z, PoolTasks.run_then hy hz, hbz.trans hby, hend⟩

/-! ### under an executor that polls only what was woken -/

theorem runExec_run {N : Nat} {S : SqlServer} {x y : PoolTasks} {ms : List PoolMove} (h : x.runExec N S ms = some y) :
    x.run N S ms = some y := by
  induction ms generalizing x with
  | nil => exact h
  | cons m ms ih =>
    unfold PoolTasks.runExec at h
    split at h
    · obtain ⟨z, h1, h2⟩ := Option.bind_eq_some_iff.1 h
      exact PoolTasks.run_cons h1 (ih h2)
    · cases h

/-- **C112 is violated** by an executor that polls only tasks that were woken: a task that has registered its waker and
was polled once more without finding a connection never ends, whatever the others do, unless its request is dropped. -/
theorem C112_hang_violated (N : Nat) (S : SqlServer) (rows : Tables) (jobs : Nat → List StoreJob) (ms ms' : List PoolMove)
    (x y : PoolTasks) (h : (PoolTasks.started rows jobs).run N S ms = some x) (i r : Nat) (hr : x.req i = some r)
    (hq : x.pool.reqs[r]? = some { st := .waiting true, awake := false }) (h' : x.runExec N S ms' = some y)
    (hc : .poll i (.cancel r) ∉ ms') :
    y.pool.reqs[r]? = some { st := .waiting true, awake := false } ∧ y.store.task i = x.store.task i ∧
      y.store.outcome i = none := by
  have hi := (PoolTogether.started N S rows jobs).run h
  clear h
  suffices H : y.pool.reqs[r]? = some { st := .waiting true, awake := false } ∧ y.req i = some r ∧
      y.store.task i = x.store.task i by
    obtain ⟨h1, h2, h3⟩ := H
    refine ⟨h1, h3, ?_⟩
    obtain ⟨q, hq2, hm⟩ := hi.mine i r hr
    rw [hq] at hq2
    injection hq2 with hq2
    subst hq2
    obtain ⟨ids, j, rest, ht⟩ := hm
    unfold StorePool.outcome
    rw [h3, ht]
  induction ms' generalizing x with
  | nil => cases h'; exact ⟨hq, hr, rfl⟩
  | cons m ms' ih =>
    unfold PoolTasks.runExec at h'
    split at h'
    next hmay =>
      obtain ⟨z, h1, h2⟩ := Option.bind_eq_some_iff.1 h'
      have key : z.pool.reqs[r]? = some { st := .waiting true, awake := false } ∧ z.req i = some r ∧
          z.store.task i = x.store.task i := by
        obtain ⟨q, hq2, hm⟩ := hi.mine i r hr
        rw [hq] at hq2
        injection hq2 with hq2
        subst hq2
        obtain ⟨ids, j, rest, ht⟩ := hm
        have stay : ∀ (e : PoolEv) (p : Pool), x.pool.allowed e = true → x.pool.step N e = some p → e ≠ .cancel r →
            p.reqs[r]? = some { st := .waiting true, awake := false } := by
          intro e p ha hs hne
          refine C40_never_woken_violated N x.pool p r [e] hq ?_ (by simpa using fun h => hne h.symm)
          unfold Pool.runExec
          rw [if_pos ha, hs]
          rfl
        unfold PoolTasks.step at h1
        cases m with
        | ask i' =>
          dsimp only at h1
          split at h1
          next ht' hr' =>
            obtain ⟨p, hp, rfl⟩ := Option.map_eq_some_iff.1 h1
            have hne : i ≠ i' := by rintro rfl; rw [hr] at hr'; cases hr'
            exact ⟨stay _ _ rfl hp (by simp), by simp [PoolTasks.setReq, hne, hr], rfl⟩
          · cases h1
        | poll i' e =>
          dsimp only at h1
          split at h1
          next r' hr' =>
            split at h1
            next he =>
              obtain ⟨p, hp, rfl⟩ := Option.map_eq_some_iff.1 h1
              have hne : e ≠ .cancel r := by
                rintro rfl
                have : r = r' := he.1
                subst this
                have := hi.alone _ _ _ hr hr'
                subst this
                exact hc List.mem_cons_self
              have hst := stay e p hmay hp hne
              by_cases hii : i = i'
              · subst hii
                rw [hr] at hr'
                injection hr' with hr'
                subst hr'
                have : ({ x with pool := p } : PoolTasks).polled S i r = { x with pool := p } := by
                  unfold PoolTasks.polled reqState
                  dsimp only
                  rw [hst]
                  rfl
                rw [this]
                exact ⟨hst, hr, rfl⟩
              · unfold PoolTasks.polled
                dsimp only
                split
                · exact ⟨hst, hr, turn_other S x.store i' _ i hii⟩
                · exact ⟨hst, by simp [PoolTasks.setReq, hii, hr], rfl⟩
                · exact ⟨hst, by simp [PoolTasks.setReq, hii, hr], rfl⟩
                · exact ⟨hst, by simp [PoolTasks.setReq, hii, hr], rfl⟩
                · exact ⟨hst, hr, rfl⟩
            · cases h1
          · cases h1
        | next i' =>
          dsimp only at h1
          split at h1
          next ids' k' j' p' rest' r' ht' hr' =>
            have hii : i ≠ i' := by rintro rfl; rw [ht] at ht'; cases ht'
            split at h1
            · obtain ⟨p, hp, rfl⟩ := Option.map_eq_some_iff.1 h1
              exact ⟨stay _ _ rfl hp (by simp), by simp [PoolTasks.setReq, hii, hr], turn_other S x.store i' k' i hii⟩
            · cases h1
              exact ⟨hq, hr, turn_other S x.store i' k' i hii⟩
          · cases h1
      obtain ⟨k1, k2, k3⟩ := key
      have := ih z k2 k1 h2 (fun hh => hc (List.mem_cons_of_mem _ hh)) (hi.step h1)
      rw [← k3]
      exact this
    · cases h'

/-! ### an example -/

namespace C112

/-- a pool of one connection: task 0 opens it, task 1 finds none and registers, task 0 stores its models and gives the
connection back. -/
def moves : List PoolMove :=
  [.ask 0, .poll 0 (.pop 0), .poll 0 (.load 0 0), .poll 0 (.cas 0), .poll 0 (.created 0),
   .ask 1, .poll 1 (.pop 1), .poll 1 (.load 1 1), .poll 1 (.register 1), .poll 1 (.pop 1), .poll 1 (.load 1 1),
   .next 0, .next 0, .next 0]

def asleep : Option PoolTasks := (PoolTasks.started C66.empty.rows C107.jobs).runExec 1 C66.server moves

/-- the connection is idle, and task 1, which waits for one, is asleep. -/
example : asleep.map (·.pool) = some
      { items := 1, queue := [0], wakers := [1], born := 1, lost := [], reqs := [⟨.gone, false⟩, ⟨.waiting true, false⟩] } ∧
    asleep.map (fun x => ([0, 1].map x.req, [0, 1].map x.store.outcome)) =
      some ([none, some 1], [some (.ok [31]), none]) := by
  refine ⟨?_, ?_⟩ <;> decide +kernel

/-- polled without having been woken, it ends; and so does task 2, with an error, on the same connection. -/
example : (asleep.bind fun x => x.run 1 C66.server [.poll 1 (.pop 1), .next 1, .next 1, .next 1, .ask 2,
      .poll 2 (.pop 2), .next 2, .next 2]).map (fun x =>
        ([0, 1, 2].map x.store.outcome, x.pool.queue, x.store.served.map fun s => (s.conn, s.task))) =
    some ([some (.ok [31]), some (.ok [32]),
      some (.error { code := 1114, state := "HY000".toList, msg := "full".toList })], [0], [(0, 0), (0, 1), (0, 2)]) := by
  decide +kernel

/-- … which the executor does not do. -/
example : (asleep.bind fun x => x.runExec 1 C66.server [.poll 1 (.pop 1)]).isNone = true := by decide +kernel

end C112

end Verif

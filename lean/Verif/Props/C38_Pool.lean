import Verif.Proofs.Pool

/-!
# C38–C41 — the connection pool

Every schedule of any number of requests: `es` is any list of steps.
-/

namespace Verif

theorem nodup_of_count {l : List Nat} (h : ∀ x, l.count x ≤ 1) : l.Nodup := by
  rw [List.nodup_iff_count]
  exact h

/-- **C38.** In every state that any schedule leads to, at most `N` connections are in use, idle or
being created, and no connection is in two places. -/
theorem C38_limit (N : Nat) (es : List PoolEv) (s : Pool) (h : Pool.new.run N es = some s) :
    (Spec.inUse s).length + s.queue.length + Spec.creating s ≤ N ∧
    (Spec.inUse s ++ s.queue).Nodup := by
  have hi := (PoolInv.new N).run h
  refine ⟨?_, nodup_of_count fun x => ?_⟩
  · have := hi.count
    have := hi.limit
    omega
  · rw [List.count_append, hi.conns x]
    split <;> omega

theorem filterMap_two {α β : Type} [BEq β] [LawfulBEq β] (f : α → Option β) (l : List α) (i j : Nat) (a b : α) (x : β)
    (hi : l[i]? = some a) (hj : l[j]? = some b) (ha : f a = some x) (hb : f b = some x) (hne : i ≠ j) :
    1 < (l.filterMap f).count x := by
  induction l generalizing i j with
  | nil => simp at hi
  | cons c l ih =>
    have one : ∀ (k : Nat) (d : α), l[k]? = some d → f d = some x → 0 < (l.filterMap f).count x := by
      intro k d hk hd
      rw [List.count_pos_iff, List.mem_filterMap]
      exact ⟨d, List.mem_of_getElem? hk, hd⟩
    cases i with
    | zero =>
      cases j with
      | zero => exact absurd rfl hne
      | succ j =>
        simp at hi hj
        subst hi
        have := one j b hj hb
        rw [List.filterMap_cons, ha]
        simp
        exact List.mem_filterMap.1 (List.count_pos_iff.1 this)
    | succ i =>
      simp at hi
      cases j with
      | zero =>
        simp at hj
        subst hj
        have := one i a hi ha
        rw [List.filterMap_cons, hb]
        simp
        exact List.mem_filterMap.1 (List.count_pos_iff.1 this)
      | succ j =>
        simp at hj
        have := ih i j hi hj (by omega)
        rw [List.filterMap_cons]
        split
        · exact this
        · rw [List.count_cons]; omega

/-- **C38**, said for users: two live items never share a connection, and an idle connection is not
in use. -/
theorem C38_exclusive (N : Nat) (es : List PoolEv) (s : Pool) (h : Pool.new.run N es = some s)
    (r r' : Nat) (c : Nat) (w w' : Bool)
    (h1 : s.reqs[r]? = some { st := .holding c, awake := w }) :
    (s.reqs[r']? = some { st := .holding c, awake := w' } → r' = r) ∧ c ∉ s.queue := by
  obtain ⟨-, hn⟩ := C38_limit N es s h
  rw [List.nodup_append] at hn
  refine ⟨fun h2 => ?_, fun h2 => ?_⟩
  · refine Decidable.byContradiction fun hne => ?_
    have := filterMap_two Spec.heldBy s.reqs r r' _ _ c h1 h2 rfl rfl (fun hh => hne hh.symm)
    have := List.nodup_iff_count.1 hn.1 c
    unfold Spec.inUse at this
    omega
  · refine hn.2.2 c ?_ c h2 rfl
    exact List.mem_filterMap.2 ⟨_, List.mem_of_getElem? h1, rfl⟩

/-- **C39.** No connection is ever thrown away, and every connection ever created is in use or idle. -/
theorem C39_kept (N : Nat) (es : List PoolEv) (s : Pool) (h : Pool.new.run N es = some s) :
    s.lost = [] ∧ ∀ c, c < s.born → c ∈ Spec.inUse s ∨ c ∈ s.queue := by
  have hi := (PoolInv.new N).run h
  refine ⟨hi.lost, fun c hc => ?_⟩
  have h1 := hi.conns c
  rw [if_pos hc] at h1
  by_cases h2 : c ∈ Spec.inUse s
  · exact .inl h2
  · right
    rw [List.count_eq_zero_of_not_mem h2] at h1
    exact List.count_pos_iff.1 (by omega)

/-- **C39.** Returning a connection puts it behind the idle ones. -/
theorem C39_returned (N : Nat) (es : List PoolEv) (s s' : Pool) (h : Pool.new.run N es = some s)
    (r c : Nat) (w : Bool) (hr : s.reqs[r]? = some { st := .holding c, awake := w })
    (hs : s.step N (.put r) = some s') : s'.queue = s.queue ++ [c] := by
  have hi := (PoolInv.new N).run h
  rcases Pool.step_cases hs with he | ⟨q, hq, hs⟩
  · cases he
  · rw [PoolEv.req] at hq hs
    rw [hr] at hq
    cases hq
    have h1 : s.queue.length < N := by
      have h2 := hi.count
      have h3 := hi.limit
      have h4 : 0 < (Spec.inUse s).length :=
        List.length_pos_of_mem (List.mem_filterMap.2 ⟨_, List.mem_of_getElem? hr, rfl⟩)
      omega
    simp only [Pool.stepReq] at hs
    rw [if_pos h1] at hs
    cases hs
    rfl

/-- **C39.** A request polled while there is an idle connection gets the one idle for longest. -/
theorem C39_handed_out (N : Nat) (s : Pool) (r c : Nat) (rest : List Nat) (reg w : Bool)
    (hr : s.reqs[r]? = some { st := .waiting reg, awake := w }) (hq : s.queue = c :: rest) :
    ∃ s', s.step N (.pop r) = some s' ∧ s'.reqs[r]? = some { st := .holding c, awake := false } ∧
      s'.queue = rest := by
  have hlt : r < s.reqs.length := (List.getElem?_eq_some_iff.1 hr).1
  refine ⟨_, by unfold Pool.step; simp only [PoolEv.req, hr, Pool.stepReq, hq]; rfl, ?_, rfl⟩
  simp [Pool.setReq, hlt]

/-- **C40 is violated.** Once a request has registered and has been polled in vain after that, it is
never polled again (nor changed in any way), whatever the others do: no step uses the registered
wakers. -/
theorem C40_never_woken_violated (N : Nat) (s s' : Pool) (r : Nat) (es : List PoolEv)
    (hr : s.reqs[r]? = some { st := .waiting true, awake := false })
    (h : s.runExec N es = some s') (hc : .cancel r ∉ es) :
    s'.reqs[r]? = some { st := .waiting true, awake := false } := by
  induction es generalizing s with
  | nil => cases h; exact hr
  | cons e es ih =>
    unfold Pool.runExec at h
    by_cases ha : s.allowed e = true
    · rw [if_pos ha] at h
      match h1 : s.step N e with
      | none => rw [h1] at h; cases h
      | some s1 =>
        rw [h1] at h
        refine ih s1 ?_ h fun hm => hc (by simp [hm])
        have hlt : r < s.reqs.length := (List.getElem?_eq_some_iff.1 hr).1
        rcases Pool.step_cases h1 with he | ⟨q, hq, hs⟩
        · subst he
          cases h1
          simp [List.getElem?_append_left hlt, hr]
        · by_cases hre : r = e.req
          · exfalso
            rw [← hre, hr] at hq
            cases hq
            cases e with
            | pop r' =>
              rw [PoolEv.req] at hre
              subst hre
              simp [Pool.allowed, hr] at ha
            | cancel r' =>
              rw [PoolEv.req] at hre
              subst hre
              simp at hc
            | _ => simp [Pool.stepReq] at hs
          · rw [Pool.stepReq_others hs hre, hr]
    · rw [if_neg ha] at h; cases h

/-- **C40 is violated**, a schedule: with a limit of one, the second request waits, the first returns
its connection, the connection is idle and the second request stays asleep. -/
theorem C40_asleep_violated :
    Pool.new.runExec 1 [.request, .pop 0, .load 0 0, .cas 0, .created 0,
      .request, .pop 1, .load 1 1, .register 1, .pop 1, .load 1 1, .put 0] =
    some { items := 1, queue := [0], wakers := [1], born := 1, lost := [],
           reqs := [⟨.gone, false⟩, ⟨.waiting true, false⟩] } := by
  decide +kernel

/-- **C40**, what the code does ensure: a request is woken right after it registered, so a connection
returned before its next poll is not missed. -/
theorem C40_after_register_partial (N : Nat) (s s' : Pool) (r : Nat)
    (h : s.step N (.register r) = some s') :
    s'.reqs[r]? = some { st := .waiting true, awake := true } ∧ s'.allowed (.pop r) = true := by
  rcases Pool.step_cases h with he | ⟨⟨st, aw⟩, hq, hs⟩
  · cases he
  · rw [PoolEv.req] at hq hs
    have hlt : r < s.reqs.length := (List.getElem?_eq_some_iff.1 hq).1
    cases st with
    | full =>
      cases hs
      have : (s.reqs.set r { st := .waiting true, awake := true })[r]? =
          some { st := .waiting true, awake := true } := List.getElem?_set_self hlt
      refine ⟨this, ?_⟩
      simp [Pool.allowed, Pool.setReq, this]
    | _ => simp [Pool.stepReq] at hs

/-! ### capacity -/

theorem last_get {α : Type} (l : List α) (a : α) : (l ++ [a])[l.length]? = some a := by simp
theorem last_set {α : Type} (l : List α) (a b : α) : (l ++ [a]).set l.length b = l ++ [b] := by simp

/-- an idle connection can be had. -/
theorem take_idle (N : Nat) (s : Pool) (c : Nat) (rest : List Nat) (hq : s.queue = c :: rest) :
    ∃ es s', s.runExec N es = some s' ∧ (Spec.inUse s').length = (Spec.inUse s).length + 1 ∧
      Spec.broken s' = Spec.broken s := by
  refine ⟨[.request, .pop s.reqs.length], { s with
    queue := rest, reqs := s.reqs ++ [{ st := .holding c, awake := false }] }, ?_, ?_, ?_⟩
  · simp [Pool.runExec, Pool.step, PoolEv.req, Pool.allowed, Pool.stepReq, hq, Pool.setReq]
  · simp [Spec.inUse, Spec.heldBy]
  · simp [Spec.broken, Spec.isBroken, List.countP_append]

/-- a connection being created can be finished. -/
theorem finish_creation (N : Nat) (s : Pool) (h : 0 < Spec.creating s) :
    ∃ es s', s.runExec N es = some s' ∧ (Spec.inUse s').length = (Spec.inUse s).length + 1 ∧
      Spec.broken s' = Spec.broken s := by
  obtain ⟨q, hq, hc⟩ := List.countP_pos_iff.1 h
  obtain ⟨r, hr⟩ := List.getElem?_of_mem hq
  obtain ⟨st, aw⟩ := q
  have hst : st = .creating := by simpa [Spec.isCreating] using hc
  subst hst
  obtain ⟨l1, l2, h1, h2⟩ := set_split hr
  refine ⟨[.created r], { s with
    born := s.born + 1, reqs := l1 ++ { st := .holding s.born, awake := aw } :: l2 }, ?_, ?_, ?_⟩
  · simp [Pool.runExec, Pool.step, PoolEv.req, Pool.allowed, Pool.stepReq, hr, Pool.setReq, h2]
  · simp [Spec.inUse, Spec.heldBy, List.filterMap_cons, h1]
    omega
  · simp [Spec.broken, Spec.isBroken, List.countP_append, h1]

/-- a connection can be created while the counter is below the limit. -/
theorem create_new (N : Nat) (s : Pool) (hq : s.queue = []) (h : s.items < N) :
    ∃ es s', s.runExec N es = some s' ∧ (Spec.inUse s').length = (Spec.inUse s).length + 1 ∧
      Spec.broken s' = Spec.broken s := by
  refine ⟨[.request, .pop s.reqs.length, .load s.reqs.length s.items, .cas s.reqs.length,
    .created s.reqs.length], { s with
      items := s.items + 1, born := s.born + 1,
      reqs := s.reqs ++ [{ st := .holding s.born, awake := false }] }, ?_, ?_, ?_⟩
  · simp [Pool.runExec, Pool.step, PoolEv.req, Pool.allowed, Pool.stepReq, hq, Pool.setReq, h]
  · simp [Spec.inUse, Spec.heldBy]
  · simp [Spec.broken, Spec.isBroken, List.countP_append]

/-- **C41**, the capacity that is left: after any history, exactly as many connections can be in use
at the same time as the limit minus the number of attempts that failed or were dropped.
(The property asks for `N`.) -/
theorem C41_capacity_partial (N : Nat) (es : List PoolEv) (s : Pool) (h : Pool.new.run N es = some s) :
    (∀ fs s', s.run N fs = some s' → (Spec.inUse s').length ≤ N - Spec.broken s') ∧
    ∃ fs s', s.runExec N fs = some s' ∧ Spec.broken s' = Spec.broken s ∧
      (Spec.inUse s').length = N - Spec.broken s := by
  have hi := (PoolInv.new N).run h
  refine ⟨fun fs s' h' => ?_, ?_⟩
  · have hi' := hi.run h'
    have := hi'.count
    have := hi'.limit
    omega
  · clear h
    generalize hm : N - Spec.broken s - (Spec.inUse s).length = m
    induction m generalizing s with
    | zero =>
      refine ⟨[], s, rfl, rfl, ?_⟩
      have := hi.count
      have := hi.limit
      omega
    | succ m ih =>
      have h1 := hi.count
      have h2 : ∃ es s', s.runExec N es = some s' ∧
          (Spec.inUse s').length = (Spec.inUse s).length + 1 ∧ Spec.broken s' = Spec.broken s := by
        match hq : s.queue with
        | c :: rest => exact take_idle N s c rest hq
        | [] =>
          by_cases h3 : 0 < Spec.creating s
          · exact finish_creation N s h3
          · rw [hq] at h1
            rw [List.length_nil] at h1
            exact create_new N s hq (by omega)
      obtain ⟨fs, s1, h3, h4, h5⟩ := h2
      obtain ⟨gs, s2, h6, h7, h8⟩ := ih s1 (hi.run (Pool.run_of_exec h3)) (by omega)
      exact ⟨fs ++ gs, s2, Pool.runExec_append h3 h6, by omega, by omega⟩

theorem broken_step {N : Nat} {s s' : Pool} {e : PoolEv} (h : s.step N e = some s') :
    Spec.broken s ≤ Spec.broken s' := by
  rcases Pool.step_cases h with he | ⟨⟨st, aw⟩, hq, hs⟩
  · subst he
    cases h
    simp [Spec.broken, List.countP_append]
  · obtain ⟨l1, l2, h1, h2⟩ := set_split hq
    clear h
    rw [h1] at h2
    cases e with
    | request => cases hs
    | _ =>
      rw [PoolEv.req] at hs h2
      cases st with
      | _ =>
        simp only [Pool.stepReq, reduceCtorEq] at hs
        try (repeat' split at hs)
        all_goals
          first
          | (cases hs; done)
          | (simp only [Option.some.injEq] at hs
             subst hs
             simp [Spec.broken, Spec.isBroken, Pool.setReq, h2, h1, List.countP_append])

theorem broken_run {N : Nat} {s s' : Pool} {es : List PoolEv} (h : s.run N es = some s') :
    Spec.broken s ≤ Spec.broken s' := by
  induction es generalizing s with
  | nil => cases h; exact Nat.le_refl _
  | cons e es ih =>
    unfold Pool.run at h
    match h1 : s.step N e with
    | some s1 => rw [h1] at h; exact Nat.le_trans (broken_step h1) (ih h)
    | none => rw [h1] at h; cases h

/-- **C41 is violated.** Slots are lost for good: once `N` attempts have failed or been dropped, no
request ever gets a connection again, in any continuation. -/
theorem C41_exhausted_violated (N : Nat) (es fs : List PoolEv) (s s' : Pool)
    (h : Pool.new.run N es = some s) (hb : Spec.broken s = N) (h' : s.run N fs = some s') :
    Spec.inUse s' = [] := by
  have h1 := (C41_capacity_partial N es s h).1 fs s' h'
  have h2 := broken_run h'
  exact List.length_eq_zero_iff.1 (by omega)

/-- such a history for a limit of two: one attempt fails, one is cancelled. -/
theorem C41_history_violated :
    (Pool.new.runExec 2 [.request, .pop 0, .load 0 0, .cas 0, .createErr 0,
      .request, .pop 1, .load 1 1, .cas 1, .cancel 1]).map Spec.broken = some 2 := by
  decide +kernel

/-! ### concrete schedules -/

-- two requests race for the last slot: one loses the exchange, is woken and finds the pool full
example : Pool.new.runExec 1 [.request, .request, .pop 0, .pop 1, .load 0 0, .load 1 0, .cas 1, .cas 0,
      .created 1, .pop 0, .load 0 1, .register 0] =
    some { items := 1, queue := [], wakers := [0], born := 1, lost := [],
           reqs := [⟨.waiting true, true⟩, ⟨.holding 0, false⟩] } := by
  decide +kernel

-- … and gets the connection if it is returned before the poll after that
example : (Pool.new.runExec 1 [.request, .request, .pop 0, .pop 1, .load 0 0, .load 1 0, .cas 1, .cas 0,
      .created 1, .pop 0, .load 0 1, .register 0, .put 1, .pop 0]).map
      (fun s => (Spec.inUse s, s.queue, s.reqs.map Req.st)) =
    some ([0], [], [.holding 0, .gone]) := by
  decide +kernel

-- a stale load makes the exchange fail instead of exceeding the limit
example : (Pool.new.runExec 1 [.request, .request, .pop 0, .load 0 0, .cas 0, .pop 1, .load 1 0, .cas 1]).map
      (fun s => (s.items, Spec.creating s)) = some (1, 1) := by
  decide +kernel

end Verif

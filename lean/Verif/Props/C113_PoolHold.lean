import Verif.Props.C112_PoolFinish
import Verif.Props.C100_MigLimit
import Verif.Spec.PoolHold

/-!
# C113 — tasks that hold several connections of the pool at a time
-/

namespace Verif

open Spec (PoolHold HoldTask HoldOp HoldMove peak holdProgram)
open Spec.PoolTasks (isPoll reqState)

/-- the requests of a task. -/
def HoldHas (t : HoldTask) (r : Nat) : Prop := t.want = some r ∨ r ∈ t.held

theorem peak_ge (ops : List HoldOp) (h : Nat) : h ≤ peak h ops := by
  induction ops generalizing h with
  | nil => exact Nat.le_refl _
  | cons op ops ih =>
    cases op with
    | get => exact Nat.le_trans (Nat.le_succ h) (ih (h + 1))
    | drop j => exact Nat.le_max_left _ _

/-! ### who has which request -/

structure HoldInv (N : Nat) (jobs : Nat → List HoldOp) (x : PoolHold) : Prop where
  pool : ∃ es, Pool.new.run N es = some x.pool
  waits : ∀ i r, (x.task i).want = some r →
    (∃ q, x.pool.reqs[r]? = some q ∧ q.st.over = false ∧ ∀ k, q.st ≠ .holding k) ∧ ∃ rest, (x.task i).rest = .get :: rest
  holds : ∀ i r, r ∈ (x.task i).held → ∃ (k : Nat) (w : Bool), x.pool.reqs[r]? = some { st := .holding k, awake := w }
  nodup : ∀ i, (x.task i).held.Nodup
  alone : ∀ i i' r, HoldHas (x.task i) r → HoldHas (x.task i') r → i = i'
  owned : ∀ r q, x.pool.reqs[r]? = some q → q.st.over = false → ∃ i, HoldHas (x.task i) r
  peaks : ∀ i, peak (x.task i).held.length (x.task i).rest ≤ peak 0 (jobs i)
  outside : ∀ i, jobs i = [] → x.task i = ⟨[], none, []⟩

namespace HoldInv

variable {N : Nat} {jobs : Nat → List HoldOp} {x : PoolHold}

theorem started (N : Nat) (jobs : Nat → List HoldOp) : HoldInv N jobs (PoolHold.started jobs) where
  pool := ⟨[], rfl⟩
  waits := by intro i r h; cases h
  holds := by intro i r h; cases h
  nodup := fun i => List.nodup_nil
  alone := by
    rintro i i' r (h | h)
    · cases h
    · cases h
  owned := by intro r q h; simp [PoolHold.started, Pool.new] at h
  peaks := fun i => Nat.le_refl _
  outside := by
    intro i h
    show HoldTask.mk _ _ _ = _
    rw [h]

theorem has_lt (h : HoldInv N jobs x) {i r : Nat} (hr : HoldHas (x.task i) r) : r < x.pool.reqs.length := by
  rcases hr with hr | hr
  · obtain ⟨⟨q, hq, -⟩, -⟩ := h.waits i r hr
    exact (List.getElem?_eq_some_iff.1 hq).1
  · obtain ⟨k, w, hq⟩ := h.holds i r hr
    exact (List.getElem?_eq_some_iff.1 hq).1

/-- one of the requests of a task changes, and perhaps leaves it. -/
theorem change (h : HoldInv N jobs x) {i r : Nat} {p : Pool} {q' : Req} {t : HoldTask}
    (hp : ∃ es, Pool.new.run N es = some p) (hset : p.reqs = x.pool.reqs.set r q') (hr : HoldHas (x.task i) r)
    (hw : ∀ r', t.want = some r' →
      (∃ q, p.reqs[r']? = some q ∧ q.st.over = false ∧ ∀ k, q.st ≠ .holding k) ∧ ∃ rest, t.rest = .get :: rest)
    (hh : ∀ r', r' ∈ t.held → ∃ (k : Nat) (w : Bool), p.reqs[r']? = some { st := .holding k, awake := w })
    (hn : t.held.Nodup) (h1 : ∀ r', HoldHas t r' → HoldHas (x.task i) r')
    (h2 : ∀ r', HoldHas (x.task i) r' → r' ≠ r → HoldHas t r') (h3 : q'.st.over = false → HoldHas t r)
    (hk : peak t.held.length t.rest ≤ peak (x.task i).held.length (x.task i).rest) : HoldInv N jobs (x.set p i t) := by
  have hlen := h.has_lt hr
  have hother : ∀ r', r' ≠ r → p.reqs[r']? = x.pool.reqs[r']? := by
    intro r' hne
    rw [hset, List.getElem?_set_ne (fun e => hne e.symm)]
  have hti : (x.set p i t).task i = t := if_pos rfl
  have htn : ∀ n, n ≠ i → (x.set p i t).task n = x.task n := fun n hn => if_neg hn
  have hne : ∀ n r', n ≠ i → HoldHas (x.task n) r' → r' ≠ r := by
    rintro n r' hni hn' rfl
    exact hni (h.alone _ _ _ hn' hr)
  refine ⟨hp, ?_, ?_, ?_, ?_, ?_, ?_, ?_⟩
  · intro n r' hr'
    by_cases hni : n = i
    · subst hni; rw [hti] at hr' ⊢; exact hw r' hr'
    · rw [htn n hni] at hr' ⊢
      show (∃ q, p.reqs[r']? = some q ∧ _) ∧ _
      rw [hother r' (hne n r' hni (.inl hr'))]
      exact h.waits n r' hr'
  · intro n r' hr'
    by_cases hni : n = i
    · subst hni; rw [hti] at hr'; exact hh r' hr'
    · rw [htn n hni] at hr'
      show ∃ k w, p.reqs[r']? = _
      rw [hother r' (hne n r' hni (.inr hr'))]
      exact h.holds n r' hr'
  · intro n
    by_cases hni : n = i
    · subst hni; rw [hti]; exact hn
    · rw [htn n hni]; exact h.nodup n
  · have key : ∀ n r', HoldHas ((x.set p i t).task n) r' → HoldHas (x.task n) r' := by
      intro n r' hr'
      by_cases hni : n = i
      · subst hni; rw [hti] at hr'; exact h1 r' hr'
      · rw [htn n hni] at hr'; exact hr'
    intro n n' r' ha hb
    exact h.alone n n' r' (key _ _ ha) (key _ _ hb)
  · intro r' q hq ho
    by_cases hrr : r' = r
    · subst hrr
      refine ⟨i, ?_⟩
      rw [hti]
      refine h3 ?_
      have : p.reqs[r']? = some q' := by rw [hset]; simp [hlen]
      have e : some q = some q' := hq.symm.trans this
      injection e with e
      rw [← e]
      exact ho
    · have hq' : x.pool.reqs[r']? = some q := (hother r' hrr).symm.trans hq
      obtain ⟨n, hn'⟩ := h.owned r' q hq' ho
      refine ⟨n, ?_⟩
      by_cases hni : n = i
      · subst hni; rw [hti]; exact h2 r' hn' hrr
      · rw [htn n hni]; exact hn'
  · intro n
    by_cases hni : n = i
    · subst hni; rw [hti]; exact hk.trans (h.peaks n)
    · rw [htn n hni]; exact h.peaks n
  · intro n hj
    by_cases hni : n = i
    · subst hni
      have := h.outside n hj
      rw [this] at hr
      rcases hr with hr | hr <;> cases hr
    · rw [htn n hni]; exact h.outside n hj

/-- the requests stay. -/
theorem same (h : HoldInv N jobs x) {i : Nat} {rest : List HoldOp} (hw : (x.task i).want = none) (hne : (x.task i).rest ≠ [])
    (hk : peak (x.task i).held.length rest ≤ peak (x.task i).held.length (x.task i).rest) :
    HoldInv N jobs (x.set x.pool i ⟨(x.task i).held, none, rest⟩) := by
  have hti : (x.set x.pool i ⟨(x.task i).held, none, rest⟩).task i = ⟨(x.task i).held, none, rest⟩ := if_pos rfl
  have htn : ∀ n, n ≠ i → (x.set x.pool i ⟨(x.task i).held, none, rest⟩).task n = x.task n := fun n hn => if_neg hn
  have key : ∀ n r', HoldHas ((x.set x.pool i ⟨(x.task i).held, none, rest⟩).task n) r' ↔ HoldHas (x.task n) r' := by
    intro n r'
    by_cases hni : n = i
    · subst hni
      rw [hti]
      unfold HoldHas
      rw [hw]
    · rw [htn n hni]
  refine ⟨h.pool, ?_, ?_, ?_, ?_, ?_, ?_, ?_⟩
  · intro n r' hr'
    by_cases hni : n = i
    · subst hni; rw [hti] at hr'; cases hr'
    · rw [htn n hni] at hr' ⊢; exact h.waits n r' hr'
  · intro n r' hr'
    by_cases hni : n = i
    · subst hni; rw [hti] at hr'; exact h.holds n r' hr'
    · rw [htn n hni] at hr'; exact h.holds n r' hr'
  · intro n
    by_cases hni : n = i
    · subst hni; rw [hti]; exact h.nodup n
    · rw [htn n hni]; exact h.nodup n
  · intro n n' r' ha hb
    exact h.alone n n' r' ((key _ _).1 ha) ((key _ _).1 hb)
  · intro r' q hq ho
    obtain ⟨n, hn⟩ := h.owned r' q hq ho
    exact ⟨n, (key _ _).2 hn⟩
  · intro n
    by_cases hni : n = i
    · subst hni; rw [hti]; exact hk.trans (h.peaks n)
    · rw [htn n hni]; exact h.peaks n
  · intro n hj
    by_cases hni : n = i
    · subst hni
      rw [h.outside n hj] at hne
      exact absurd rfl hne
    · rw [htn n hni]; exact h.outside n hj

theorem ask (h : HoldInv N jobs x) {i : Nat} {held : List Nat} {rest : List HoldOp} {p : Pool}
    (ht : x.task i = ⟨held, none, .get :: rest⟩) (hs : x.pool.step N .request = some p) :
    HoldInv N jobs (x.set p i ⟨held, some x.pool.reqs.length, .get :: rest⟩) := by
  obtain ⟨es, hes⟩ := h.pool
  have hrun := pool_run_step hes hs
  have hp : p.reqs = x.pool.reqs ++ [{ st := .waiting false, awake := true }] := by
    unfold Pool.step at hs
    injection hs with hs
    rw [← hs]
  have hold : ∀ (r' : Nat) (q : Req), x.pool.reqs[r']? = some q → p.reqs[r']? = some q := by
    intro r' q hq
    rw [hp, List.getElem?_append_left (List.getElem?_eq_some_iff.1 hq).1]
    exact hq
  generalize ht2 : (⟨held, some x.pool.reqs.length, .get :: rest⟩ : HoldTask) = t
  have hti : (x.set p i t).task i = t := if_pos rfl
  have htn : ∀ n, n ≠ i → (x.set p i t).task n = x.task n := fun n hn => if_neg hn
  have key : ∀ n r', HoldHas ((x.set p i t).task n) r' → HoldHas (x.task n) r' ∨ (n = i ∧ r' = x.pool.reqs.length) := by
    intro n r' hr'
    by_cases hni : n = i
    · subst hni
      rw [hti, ← ht2] at hr'
      rcases hr' with hr' | hr'
      · injection hr' with hr'
        exact .inr ⟨rfl, hr'.symm⟩
      · exact .inl (.inr (by rw [ht]; exact hr'))
    · rw [htn n hni] at hr'; exact .inl hr'
  refine ⟨⟨_, hrun⟩, ?_, ?_, ?_, ?_, ?_, ?_, ?_⟩
  · intro n r' hr'
    by_cases hni : n = i
    · subst hni
      rw [hti, ← ht2] at hr' ⊢
      injection hr' with hr'
      subst hr'
      refine ⟨⟨{ st := .waiting false, awake := true }, ?_, rfl, by simp⟩, rest, rfl⟩
      show p.reqs[_]? = _
      rw [hp]
      exact last_get _ _
    · rw [htn n hni] at hr' ⊢
      obtain ⟨⟨q, hq, ho, hk⟩, hrest⟩ := h.waits n r' hr'
      exact ⟨⟨q, hold _ _ hq, ho, hk⟩, hrest⟩
  · intro n r' hr'
    have : r' ∈ (x.task n).held := by
      by_cases hni : n = i
      · subst hni; rw [hti, ← ht2] at hr'; rw [ht]; exact hr'
      · rw [htn n hni] at hr'; exact hr'
    obtain ⟨k, w, hq⟩ := h.holds n r' this
    exact ⟨k, w, hold _ _ hq⟩
  · intro n
    by_cases hni : n = i
    · subst hni
      have := h.nodup n
      rw [ht] at this
      rw [hti, ← ht2]
      exact this
    · rw [htn n hni]; exact h.nodup n
  · intro n n' r' ha hb
    rcases key _ _ ha with ha' | ⟨ea, ea'⟩ <;> rcases key _ _ hb with hb' | ⟨eb, eb'⟩
    · exact h.alone n n' r' ha' hb'
    · have := h.has_lt ha'
      omega
    · have := h.has_lt hb'
      omega
    · exact ea.trans eb.symm
  · intro r' q hq ho
    by_cases hlen : r' < x.pool.reqs.length
    · have hq' : x.pool.reqs[r']? = some q := by
        have e : p.reqs[r']? = some q := hq
        rw [hp, List.getElem?_append_left hlen] at e
        exact e
      obtain ⟨n, hn⟩ := h.owned r' q hq' ho
      refine ⟨n, ?_⟩
      by_cases hni : n = i
      · subst hni
        rw [ht] at hn
        rw [hti, ← ht2]
        rcases hn with hn | hn
        · cases hn
        · exact .inr hn
      · rw [htn n hni]; exact hn
    · have hl : r' < p.reqs.length := (List.getElem?_eq_some_iff.1 hq).1
      rw [hp, List.length_append, List.length_singleton] at hl
      have e : r' = x.pool.reqs.length := by omega
      refine ⟨i, ?_⟩
      rw [hti, ← ht2, e]
      exact .inl rfl
  · intro n
    by_cases hni : n = i
    · subst hni
      have := h.peaks n
      rw [ht] at this
      rw [hti, ← ht2]
      exact this
    · rw [htn n hni]; exact h.peaks n
  · intro n hj
    by_cases hni : n = i
    · subst hni
      have := h.outside n hj
      rw [ht] at this
      cases this
    · rw [htn n hni]; exact h.outside n hj

theorem poll (h : HoldInv N jobs x) {i : Nat} {e : PoolEv} {p : Pool} (hw : (x.task i).want = some e.req)
    (he : isPoll e = true) (hs : x.pool.step N e = some p) :
    HoldInv N jobs (x.set p i ((x.task i).polled e.req (reqState p e.req))) := by
  obtain ⟨es, hes⟩ := h.pool
  have hrun := pool_run_step hes hs
  obtain ⟨q, q', hq, hset, -, hnh, -⟩ := step_poll he hs
  have hlen := (List.getElem?_eq_some_iff.1 hq).1
  have hnew : p.reqs[e.req]? = some q' := by rw [hset]; simp [hlen]
  have hstate : reqState p e.req = some q'.st := by unfold reqState; rw [hnew]; rfl
  obtain ⟨-, rest, hrest⟩ := h.waits i _ hw
  have hnot : e.req ∉ (x.task i).held := by
    intro hm
    obtain ⟨k, w, hk⟩ := h.holds i _ hm
    rw [hq] at hk
    injection hk with hk
    exact hnh k (by rw [hk])
  have hheld : ∀ r', r' ∈ (x.task i).held → ∃ (k : Nat) (w : Bool), p.reqs[r']? = some { st := .holding k, awake := w } := by
    intro r' hr'
    have hne : r' ≠ e.req := by rintro rfl; exact hnot hr'
    rw [hset, List.getElem?_set_ne (fun e => hne e.symm)]
    exact h.holds i r' hr'
  rw [hstate]
  have forget : q'.st.over = true → HoldInv N jobs (x.set p i { x.task i with want := none }) := by
    intro ho
    refine h.change ⟨_, hrun⟩ hset (.inl hw) (by intro r' hr'; cases hr') hheld (h.nodup i) ?_ ?_ ?_ (Nat.le_refl _)
    · rintro r' (hr' | hr')
      · cases hr'
      · exact .inr hr'
    · rintro r' (hr' | hr') hne
      · rw [hw] at hr'
        injection hr' with hr'
        exact absurd hr'.symm hne
      · exact .inr hr'
    · intro ho'
      rw [ho] at ho'
      cases ho'
  have stay : q'.st.over = false → (∀ k, q'.st ≠ .holding k) → HoldInv N jobs (x.set p i (x.task i)) := by
    intro ho hk
    refine h.change ⟨_, hrun⟩ hset (.inl hw) ?_ hheld (h.nodup i) (fun _ h => h) (fun _ h _ => h) (fun _ => .inl hw)
      (Nat.le_refl _)
    intro r' hr'
    rw [hw] at hr'
    injection hr' with hr'
    subst hr'
    exact ⟨⟨q', hnew, ho, hk⟩, rest, hrest⟩
  obtain ⟨st, w⟩ := q'
  cases st with
  | holding k =>
    refine h.change ⟨_, hrun⟩ hset (.inl hw) (by intro r' hr'; cases hr') ?_ ?_ ?_ ?_ ?_ ?_
    · intro r' hr'
      rcases List.mem_cons.1 hr' with rfl | hr'
      · exact ⟨k, w, hnew⟩
      · exact hheld r' hr'
    · exact List.nodup_cons.2 ⟨hnot, h.nodup i⟩
    · rintro r' (hr' | hr')
      · cases hr'
      · rcases List.mem_cons.1 hr' with rfl | hr'
        · exact .inl hw
        · exact .inr hr'
    · rintro r' (hr' | hr') hne
      · rw [hw] at hr'
        injection hr' with hr'
        exact absurd hr'.symm hne
      · exact .inr (List.mem_cons_of_mem _ hr')
    · intro _
      exact .inr List.mem_cons_self
    · show peak ((x.task i).held.length + 1) (x.task i).rest.tail ≤ _
      rw [hrest]
      exact Nat.le_refl _
  | failed => exact forget rfl
  | dropped => exact forget rfl
  | gone => exact forget rfl
  | _ => exact stay rfl (by simp)

theorem put (h : HoldInv N jobs x) {i r : Nat} {p : Pool} {held : List Nat} {rest : List HoldOp}
    (hw : (x.task i).want = none) (hs : x.pool.step N (.put r) = some p) (hr : r ∈ (x.task i).held)
    (hh : held = (x.task i).held.erase r) (hk : peak held.length rest ≤ peak (x.task i).held.length (x.task i).rest) :
    HoldInv N jobs (x.set p i ⟨held, none, rest⟩) := by
  obtain ⟨es, hes⟩ := h.pool
  have hrun := pool_run_step hes hs
  obtain ⟨q, q', k, hq, hqk, hset, hg, -⟩ := step_put hs
  have hmem : ∀ r', r' ∈ held ↔ r' ≠ r ∧ r' ∈ (x.task i).held := by
    intro r'
    rw [hh]
    exact (h.nodup i).mem_erase_iff
  refine h.change ⟨_, hrun⟩ hset (.inr hr) (by intro r' hr'; cases hr') ?_ ?_ ?_ ?_ ?_ hk
  · intro r' hr'
    obtain ⟨hne, hr'⟩ := (hmem r').1 hr'
    rw [hset, List.getElem?_set_ne (fun e => hne e.symm)]
    exact h.holds i r' hr'
  · show held.Nodup
    rw [hh]
    exact (h.nodup i).erase r
  · rintro r' (hr' | hr')
    · cases hr'
    · exact .inr ((hmem r').1 hr').2
  · rintro r' (hr' | hr') hne
    · rw [hw] at hr'
      cases hr'
    · exact .inr ((hmem r').2 ⟨hne, hr'⟩)
  · intro ho
    rw [hg] at ho
    cases ho

theorem step (h : HoldInv N jobs x) {m : HoldMove} {y : PoolHold} (hs : x.step N m = some y) : HoldInv N jobs y := by
  unfold PoolHold.step at hs
  cases m with
  | ask i =>
    dsimp only at hs
    split at hs
    next held rest ht =>
      obtain ⟨p, hp, rfl⟩ := Option.map_eq_some_iff.1 hs
      exact h.ask ht hp
    · cases hs
  | poll i e =>
    dsimp only at hs
    split at hs
    next r hr =>
      split at hs
      next he =>
        obtain ⟨rfl, he⟩ := he
        obtain ⟨p, hp, rfl⟩ := Option.map_eq_some_iff.1 hs
        exact h.poll hr he hp
      · cases hs
    · cases hs
  | next i =>
    dsimp only at hs
    split at hs
    next held j rest ht =>
      split at hs
      next r hj =>
        obtain ⟨p, hp, rfl⟩ := Option.map_eq_some_iff.1 hs
        obtain ⟨hlt, hj'⟩ := List.getElem?_eq_some_iff.1 hj
        refine h.put (by rw [ht]) hp (by rw [ht]; exact List.mem_of_getElem? hj) ?_ ?_
        · have hn := h.nodup i
          rw [ht] at hn ⊢
          dsimp only at hn ⊢
          rw [← hj', hn.erase_getElem]
        · rw [ht]
          dsimp only
          rw [List.length_eraseIdx, if_pos hlt]
          conv => rhs; unfold peak
          rw [if_pos hlt]
          exact Nat.le_max_right _ _
      next hj =>
        cases hs
        have := h.same (i := i) (rest := rest) (by rw [ht]) (by rw [ht]; simp) (by
          rw [ht]
          dsimp only
          conv => rhs; unfold peak
          rw [if_neg (by rw [List.getElem?_eq_none_iff] at hj; omega)]
          exact Nat.le_max_right _ _)
        rw [ht] at this
        exact this
    next r held ht =>
      obtain ⟨p, hp, rfl⟩ := Option.map_eq_some_iff.1 hs
      refine h.put (by rw [ht]) hp (by rw [ht]; exact List.mem_cons_self) ?_ ?_
      · rw [ht]
        exact (List.erase_cons_head ..).symm
      · rw [ht]
        exact Nat.le_succ _
    · cases hs
  | quit i =>
    dsimp only at hs
    split at hs
    next held op rest ht =>
      cases hs
      have := h.same (i := i) (rest := []) (by rw [ht]) (by rw [ht]; simp) (peak_ge _ _)
      rw [ht] at this
      exact this
    · cases hs

theorem run (h : HoldInv N jobs x) {ms : List HoldMove} {y : PoolHold} (hs : x.run N ms = some y) : HoldInv N jobs y := by
  induction ms generalizing x with
  | nil => cases hs; exact h
  | cons m ms ih =>
    unfold PoolHold.run at hs
    obtain ⟨z, h1, h2⟩ := Option.bind_eq_some_iff.1 hs
    exact ih (h.step h1) h2

end HoldInv

/-! ### getting on -/

/-- what is left to do. -/
def holdWeight (t : HoldTask) : Nat := 2 * t.rest.length + t.held.length

/-- there are moves after which less is left to do for one task, and as much for the others; and no place in the pool is
lost. -/
def Gains (N : Nat) (x : PoolHold) : Prop :=
  ∃ ms y, x.run N ms = some y ∧ (∀ m ∈ ms, m.keepsOn = true) ∧ Spec.broken y.pool = Spec.broken x.pool ∧
    ∃ i, holdWeight (y.task i) < holdWeight (x.task i) ∧ ∀ n, n ≠ i → holdWeight (y.task n) = holdWeight (x.task n)

theorem Gains.after {N : Nat} {x y : PoolHold} {m : HoldMove} (hs : x.step N m = some y)
    (hm : m.keepsOn = true) (hb : Spec.broken y.pool = Spec.broken x.pool) (hw : ∀ n, holdWeight (y.task n) = holdWeight (x.task n))
    (h : Gains N y) : Gains N x := by
  obtain ⟨ms, z, h1, hms, h2, i, h3, h4⟩ := h
  refine ⟨m :: ms, z, ?_, List.forall_mem_cons.2 ⟨hm, hms⟩, h2.trans hb, i, hw i ▸ h3,
    fun n hn => (h4 n hn).trans (hw n)⟩
  unfold PoolHold.run
  rw [hs]
  exact h1

/-- one move. -/
theorem Gains.now {N : Nat} {x : PoolHold} {m : HoldMove} {p : Pool} {i : Nat} {t : HoldTask}
    (hs : x.step N m = some (x.set p i t)) (hm : m.keepsOn = true) (hb : Spec.broken p = Spec.broken x.pool)
    (hw : holdWeight t < holdWeight (x.task i)) : Gains N x := by
  refine ⟨[m], x.set p i t, ?_, by simpa using hm, hb, i, ?_, fun n hn => ?_⟩
  · unfold PoolHold.run
    rw [hs]
    rfl
  · show holdWeight (if i = i then t else _) < _
    rw [if_pos rfl]
    exact hw
  · show holdWeight (if n = i then t else _) = _
    rw [if_neg hn]

theorem hold_set_same (x : PoolHold) (p : Pool) (i : Nat) : x.set p i (x.task i) = { x with pool := p } := by
  unfold PoolHold.set
  congr 1
  funext n
  by_cases h : n = i
  · rw [if_pos h, h]
  · rw [if_neg h]

section

variable {N : Nat} {x : PoolHold} {i r : Nat} {rest : List HoldOp}

/-- a poll after which the request has a connection. -/
theorem Gains.gets {k : Nat} {e : PoolEv} {q : Req} {w : Bool} {p : Pool} (hr : (x.task i).want = some r)
    (ht : (x.task i).rest = .get :: rest) (he : e.req = r) (hp : isPoll e = true)
    (hm : (HoldMove.poll i e).keepsOn = true) (hs : x.pool.step N e = some p) (hq : x.pool.reqs[r]? = some q) (hb : Spec.isBroken q = false)
    (hset : p.reqs = x.pool.reqs.set r { st := .holding k, awake := w }) : Gains N x := by
  have hlen := (List.getElem?_eq_some_iff.1 hq).1
  have hnew : p.reqs[r]? = some { st := .holding k, awake := w } := by rw [hset]; simp [hlen]
  refine Gains.now (m := .poll i e) (p := p) (i := i) (t := ⟨r :: (x.task i).held, none, (x.task i).rest.tail⟩) ?_ hm
    ?_ ?_
  · unfold PoolHold.step
    dsimp only
    rw [hr]
    dsimp only
    rw [if_pos ⟨he, hp⟩, hs, Option.map_some]
    unfold reqState
    rw [hnew]
    rfl
  · show p.reqs.countP _ = x.pool.reqs.countP _
    rw [hset]
    exact broken_set hq (by rw [hb]; rfl)
  · unfold holdWeight
    rw [ht]
    simp only [List.tail_cons, List.length_cons]
    omega

/-- a poll after which the request goes on waiting. -/
theorem Gains.waits {e : PoolEv} {q q' : Req} {p : Pool} (hr : (x.task i).want = some r) (he : e.req = r)
    (hp : isPoll e = true) (hm : (HoldMove.poll i e).keepsOn = true) (hs : x.pool.step N e = some p)
    (hq : x.pool.reqs[r]? = some q) (hb : Spec.isBroken q = false)
    (hset : p.reqs = x.pool.reqs.set r q') (hn : ∀ k, q'.st ≠ .holding k) (ho : q'.st.over = false)
    (hgo : p.reqs[r]? = some q' → Gains N { x with pool := p }) : Gains N x := by
  have hlen := (List.getElem?_eq_some_iff.1 hq).1
  have hnew : p.reqs[r]? = some q' := by rw [hset]; simp [hlen]
  refine Gains.after (m := .poll i e) (y := { x with pool := p }) ?_ hm ?_ (fun _ => rfl) (hgo hnew)
  · unfold PoolHold.step
    dsimp only
    rw [hr]
    dsimp only
    rw [if_pos ⟨he, hp⟩, hs, Option.map_some, ← hold_set_same x p i]
    unfold reqState
    rw [hnew]
    obtain ⟨st, w⟩ := q'
    cases st with
    | holding k => exact absurd rfl (hn k)
    | failed => cases ho
    | dropped => cases ho
    | gone => cases ho
    | _ => rfl
  · show p.reqs.countP _ = x.pool.reqs.countP _
    rw [hset]
    refine broken_set hq ?_
    rw [hb]
    obtain ⟨st, w⟩ := q'
    cases st <;> first | rfl | cases ho

theorem Gains.of_creating {w : Bool} (hr : (x.task i).want = some r) (ht : (x.task i).rest = .get :: rest)
    (hq : x.pool.reqs[r]? = some { st := .creating, awake := w }) : Gains N x :=
  Gains.gets (e := .created r) hr ht rfl rfl rfl (pool_step (.created r) rfl hq rfl) hq rfl rfl

theorem Gains.of_loaded {reg w : Bool} (hr : (x.task i).want = some r) (ht : (x.task i).rest = .get :: rest)
    (hq : x.pool.reqs[r]? = some { st := .loaded reg x.pool.items, awake := w }) : Gains N x := by
  have hs : x.pool.step N (.cas r) = some
      ({ x.pool with items := x.pool.items + 1 }.setReq r { st := .creating, awake := w }) :=
    pool_step (.cas r) rfl hq (by simp [Pool.stepReq, PoolEv.req])
  exact Gains.waits (q' := { st := .creating, awake := w }) hr rfl rfl rfl hs hq rfl rfl (by simp) rfl
    fun hnew => Gains.of_creating (x := { x with pool := _ }) hr ht hnew

theorem Gains.of_empty {reg w : Bool} (hr : (x.task i).want = some r) (ht : (x.task i).rest = .get :: rest)
    (hi : x.pool.items < N) (hq : x.pool.reqs[r]? = some { st := .empty reg, awake := w }) : Gains N x := by
  have hs : x.pool.step N (.load r x.pool.items) = some
      (x.pool.setReq r { st := .loaded reg x.pool.items, awake := w }) :=
    pool_step (.load r x.pool.items) rfl hq (by simp [Pool.stepReq, PoolEv.req, hi])
  exact Gains.waits (q' := { st := .loaded reg x.pool.items, awake := w }) hr rfl rfl rfl hs hq rfl rfl (by simp) rfl
    fun hnew => Gains.of_loaded (x := { x with pool := _ }) hr ht hnew

theorem Gains.of_waiting {reg w : Bool} (hr : (x.task i).want = some r) (ht : (x.task i).rest = .get :: rest)
    (hi : x.pool.queue = [] → x.pool.items < N) (hq : x.pool.reqs[r]? = some { st := .waiting reg, awake := w }) :
    Gains N x := by
  match hqu : x.pool.queue with
  | k :: rest' =>
    have hs : x.pool.step N (.pop r) = some
        ({ x.pool with queue := rest' }.setReq r { st := .holding k, awake := false }) :=
      pool_step (.pop r) rfl hq (by simp [Pool.stepReq, PoolEv.req, hqu])
    exact Gains.gets hr ht rfl rfl rfl hs hq rfl rfl
  | [] =>
    have hs : x.pool.step N (.pop r) = some (x.pool.setReq r { st := .empty reg, awake := false }) :=
      pool_step (.pop r) rfl hq (by simp [Pool.stepReq, PoolEv.req, hqu])
    exact Gains.waits (q' := { st := .empty reg, awake := false }) hr rfl rfl rfl hs hq rfl rfl (by simp) rfl
      fun hnew => Gains.of_empty (x := { x with pool := _ }) hr ht (hi hqu) hnew

theorem Gains.of_full {w : Bool} (hr : (x.task i).want = some r) (ht : (x.task i).rest = .get :: rest)
    (hi : x.pool.queue = [] → x.pool.items < N) (hq : x.pool.reqs[r]? = some { st := .full, awake := w }) :
    Gains N x := by
  have hs : x.pool.step N (.register r) = some
      ({ x.pool with wakers := x.pool.wakers ++ [r] }.setReq r { st := .waiting true, awake := true }) :=
    pool_step (.register r) rfl hq rfl
  exact Gains.waits (q' := { st := .waiting true, awake := true }) hr rfl rfl rfl hs hq rfl rfl (by simp) rfl
    fun hnew => Gains.of_waiting (x := { x with pool := _ }) hr ht hi hnew

/-- a request that is not over leads on, if there is an idle connection or a place for a new one. -/
theorem Gains.of_request {q : Req} (hr : (x.task i).want = some r) (ht : (x.task i).rest = .get :: rest)
    (hi : x.pool.queue = [] → x.pool.items < N) (hq : x.pool.reqs[r]? = some q) (ho : q.st.over = false)
    (hn : ∀ k, q.st ≠ .holding k) : Gains N x := by
  obtain ⟨st, w⟩ := q
  cases st with
  | waiting reg => exact Gains.of_waiting hr ht hi hq
  | empty reg =>
    by_cases hlt : x.pool.items < N
    · exact Gains.of_empty hr ht hlt hq
    · cases reg with
      | true =>
        have hs : x.pool.step N (.load r x.pool.items) = some (x.pool.setReq r { st := .waiting true, awake := w }) :=
          pool_step (.load r x.pool.items) rfl hq (by simp [Pool.stepReq, PoolEv.req, hlt])
        exact Gains.waits (q' := { st := .waiting true, awake := w }) hr rfl rfl rfl hs hq rfl rfl (by simp) rfl
          fun hnew => Gains.of_waiting (x := { x with pool := _ }) hr ht hi hnew
      | false =>
        have hs : x.pool.step N (.load r x.pool.items) = some (x.pool.setReq r { st := .full, awake := w }) :=
          pool_step (.load r x.pool.items) rfl hq (by simp [Pool.stepReq, PoolEv.req, hlt])
        exact Gains.waits (q' := { st := .full, awake := w }) hr rfl rfl rfl hs hq rfl rfl (by simp) rfl
          fun hnew => Gains.of_full (x := { x with pool := _ }) hr ht hi hnew
  | loaded reg k =>
    by_cases hk : x.pool.items = k
    · subst hk
      exact Gains.of_loaded hr ht hq
    · have hs : x.pool.step N (.cas r) = some (x.pool.setReq r { st := .waiting reg, awake := true }) :=
        pool_step (.cas r) rfl hq (by simp [Pool.stepReq, PoolEv.req, hk])
      exact Gains.waits (q' := { st := .waiting reg, awake := true }) hr rfl rfl rfl hs hq rfl rfl (by simp) rfl
        fun hnew => Gains.of_waiting (x := { x with pool := _ }) hr ht hi hnew
  | full => exact Gains.of_full hr ht hi hq
  | creating => exact Gains.of_creating hr ht hq
  | holding k => exact absurd rfl (hn k)
  | failed => cases ho
  | dropped => cases ho
  | gone => cases ho

/-- dropping a connection. -/
theorem Gains.of_put {held : List Nat} {rest' : List HoldOp} {k : Nat} {w : Bool}
    (hq : x.pool.reqs[r]? = some { st := .holding k, awake := w })
    (hm : ∀ p, x.pool.step N (.put r) = some p → x.step N (.next i) = some (x.set p i ⟨held, none, rest'⟩))
    (hw : 2 * rest'.length + held.length < holdWeight (x.task i)) : Gains N x := by
  have hput : ∃ s', x.pool.step N (.put r) = some s' := by
    by_cases hl : x.pool.queue.length < N
    · exact ⟨_, pool_step (.put r) rfl hq (if_pos hl)⟩
    · exact ⟨_, pool_step (.put r) rfl hq (if_neg hl)⟩
  obtain ⟨p, hp⟩ := hput
  refine Gains.now (hm p hp) rfl ?_ hw
  obtain ⟨q, q', k', hq0, hqk, hset, hq'g, -⟩ := step_put hp
  show p.reqs.countP _ = x.pool.reqs.countP _
  rw [hset]
  refine broken_set hq0 ?_
  unfold Spec.isBroken
  rw [hqk, hq'g]
  rfl

end

/-! ### how many are held -/

/-- the requests with a connection. -/
def holdingReqs (s : Pool) : List Nat :=
  (List.range s.reqs.length).filter fun r => ((s.reqs[r]?).bind Spec.heldBy).isSome

theorem filterMap_length_range {α β : Type} (f : α → Option β) (l : List α) :
    ((List.range l.length).filter fun r => ((l[r]?).bind f).isSome).length = (l.filterMap f).length := by
  induction l using List.reverseRecOn with
  | nil => rfl
  | append_singleton l a ih =>
    have hc : (List.range l.length).filter (fun r => (((l ++ [a])[r]?).bind f).isSome) =
        (List.range l.length).filter fun r => ((l[r]?).bind f).isSome := by
      refine List.filter_congr fun r hr => ?_
      rw [List.getElem?_append_left (List.mem_range.1 hr)]
    rw [List.length_append, List.length_singleton, List.range_succ, List.filter_append, List.length_append, hc, ih,
      List.filterMap_append, List.length_append]
    congr 1
    rw [List.filter_singleton, List.getElem?_concat_length]
    cases h : f a <;> simp [h]

theorem HoldInv.in_use {N : Nat} {jobs : Nat → List HoldOp} {x : PoolHold} (h : HoldInv N jobs x) (tasks : Finset Nat)
    (ht : ∀ i, i ∉ tasks → jobs i = []) :
    (Spec.inUse x.pool).length ≤ ∑ i ∈ tasks, (x.task i).held.length := by
  have hlen : (Spec.inUse x.pool).length = (holdingReqs x.pool).length := (filterMap_length_range _ _).symm
  have hsub : holdingReqs x.pool ⊆ tasks.toList.flatMap fun i => (x.task i).held := by
    intro r hr
    obtain ⟨-, hr⟩ := List.mem_filter.1 hr
    match hq : x.pool.reqs[r]? with
    | none => rw [hq] at hr; cases hr
    | some ⟨st, w⟩ =>
      rw [hq] at hr
      cases st with
      | holding k =>
        obtain ⟨i, hi⟩ := h.owned r _ hq rfl
        rcases hi with hi | hi
        · obtain ⟨⟨q, hq', -, hk⟩, -⟩ := h.waits i r hi
          rw [hq] at hq'
          injection hq' with hq'
          exact absurd (by rw [← hq']) (hk k)
        · refine List.mem_flatMap.2 ⟨i, Finset.mem_toList.2 ?_, hi⟩
          by_contra hit
          rw [h.outside i (ht i hit)] at hi
          cases hi
      | _ => cases hr
  have hnd : (holdingReqs x.pool).Nodup := List.nodup_range.filter _
  have := (List.Nodup.subperm hnd hsub).length_le
  rw [hlen]
  refine this.trans (le_of_eq ?_)
  rw [List.length_flatMap]
  exact Finset.sum_map_toList _ _

/-- as long as a task has not ended, somebody can get on. -/
theorem HoldInv.gains {N : Nat} {jobs : Nat → List HoldOp} {x : PoolHold} (h : HoldInv N jobs x) (tasks : Finset Nat)
    (ht : ∀ i, i ∉ tasks → jobs i = []) (hb : ∑ i ∈ tasks, (peak 0 (jobs i) - 1) + Spec.broken x.pool < N) {i : Nat}
    (hi : ¬(x.task i).ended) : Gains N x := by
  -- somebody may drop a connection
  by_cases hd : ∃ i held j rest, x.task i = ⟨held, none, .drop j :: rest⟩
  · obtain ⟨i, held, j, rest, hti⟩ := hd
    match hj : held[j]? with
    | some r =>
      obtain ⟨k, w, hq⟩ := h.holds i r (by rw [hti]; exact List.mem_of_getElem? hj)
      refine Gains.of_put (i := i) (held := held.eraseIdx j) (rest' := rest) hq ?_ ?_
      · intro p hp
        unfold PoolHold.step
        dsimp only
        rw [hti]
        dsimp only
        rw [hj]
        dsimp only
        rw [hp]
        rfl
      · rw [hti]
        unfold holdWeight
        simp only [List.length_cons]
        have := List.length_eraseIdx_le held j
        omega
    | none =>
      refine Gains.now (m := .next i) (p := x.pool) (i := i) (t := ⟨held, none, rest⟩) ?_ rfl rfl ?_
      · unfold PoolHold.step
        dsimp only
        rw [hti]
        dsimp only
        rw [hj]
      · rw [hti]
        unfold holdWeight
        simp only [List.length_cons]
        omega
  by_cases he : ∃ i r held, x.task i = ⟨r :: held, none, []⟩
  · obtain ⟨i, r, held, hti⟩ := he
    obtain ⟨k, w, hq⟩ := h.holds i r (by rw [hti]; exact List.mem_cons_self)
    refine Gains.of_put (i := i) (held := held) (rest' := []) hq ?_ ?_
    · intro p hp
      unfold PoolHold.step
      dsimp only
      rw [hti]
      dsimp only
      rw [hp]
      rfl
    · rw [hti]
      unfold holdWeight
      simp
  by_cases hcr : ∃ (r : Nat) (w : Bool), x.pool.reqs[r]? = some { st := .creating, awake := w }
  · obtain ⟨r, w, hq⟩ := hcr
    obtain ⟨i', hi'⟩ := h.owned r _ hq rfl
    rcases hi' with hi' | hi'
    · obtain ⟨-, rest, hrest⟩ := h.waits i' r hi'
      exact Gains.of_creating hi' hrest hq
    · obtain ⟨k, w, hk⟩ := h.holds i' r hi'
      rw [hq] at hk
      cases hk
  -- everybody who has not ended waits for a connection
  have hshape : ∀ i, (x.task i).ended ∨ ∃ rest, (x.task i).rest = .get :: rest := by
    intro i
    match hti : x.task i with
    | ⟨held, some r, rest⟩ =>
      obtain ⟨-, h'⟩ := h.waits i r (by rw [hti])
      rw [hti] at h'
      exact .inr h'
    | ⟨held, none, .get :: rest⟩ => exact .inr ⟨rest, rfl⟩
    | ⟨held, none, .drop j :: rest⟩ => exact absurd ⟨i, held, j, rest, hti⟩ hd
    | ⟨[], none, []⟩ => exact .inl ⟨rfl, rfl, rfl⟩
    | ⟨r :: held, none, []⟩ => exact absurd ⟨i, r, held, hti⟩ he
  have hheld : ∀ i, (x.task i).held.length ≤ peak 0 (jobs i) - 1 := by
    intro i
    rcases hshape i with ⟨h1, -⟩ | ⟨rest, hrest⟩
    · rw [h1]
      exact Nat.zero_le _
    · have h1 := h.peaks i
      rw [hrest] at h1
      have h2 : (x.task i).held.length + 1 ≤ peak (x.task i).held.length (.get :: rest) := peak_ge rest _
      omega
  have hroom : x.pool.queue = [] → x.pool.items < N := by
    intro hqu
    obtain ⟨es, hes⟩ := h.pool
    have hc := ((PoolInv.new N).run hes).count
    have h1 := h.in_use tasks ht
    have h2 : ∑ i ∈ tasks, (x.task i).held.length ≤ ∑ i ∈ tasks, (peak 0 (jobs i) - 1) :=
      Finset.sum_le_sum fun i _ => hheld i
    have h3 : Spec.creating x.pool = 0 := by
      unfold Spec.creating
      rw [List.countP_eq_zero]
      rintro ⟨st, w⟩ hq
      obtain ⟨r, hr⟩ := List.getElem?_of_mem hq
      cases st with
      | creating => exact absurd ⟨r, w, hr⟩ hcr
      | _ => simp [Spec.isCreating]
    rw [h3, hqu, List.length_nil] at hc
    omega
  obtain ⟨rest, hrest⟩ := (hshape i).resolve_left hi
  match hw : (x.task i).want with
  | some r =>
    obtain ⟨⟨q, hq, ho, hk⟩, -⟩ := h.waits i r hw
    exact Gains.of_request hw hrest hroom hq ho hk
  | none =>
    have hti : x.task i = ⟨(x.task i).held, none, .get :: rest⟩ := by
      rw [← hw, ← hrest]
    generalize (x.task i).held = held at hti
    generalize hp : ({ x.pool with reqs := x.pool.reqs ++ [Req.mk (.waiting false) true] } : Pool) = p
    have hmove : x.step N (.ask i) = some (x.set p i ⟨held, some x.pool.reqs.length, .get :: rest⟩) := by
      unfold PoolHold.step
      dsimp only
      rw [hti]
      dsimp only
      rw [← hp]
      rfl
    have hti' : (x.set p i ⟨held, some x.pool.reqs.length, .get :: rest⟩).task i =
        ⟨held, some x.pool.reqs.length, .get :: rest⟩ := if_pos rfl
    refine Gains.after hmove rfl ?_ ?_ (Gains.of_waiting (i := i) (r := x.pool.reqs.length) (reg := false) (w := true)
      (rest := rest) (by rw [hti']) (by rw [hti']) ?_ ?_)
    · show p.reqs.countP _ = x.pool.reqs.countP _
      rw [← hp, List.countP_append]
      rfl
    · intro n
      by_cases hn : n = i
      · subst hn
        rw [hti', hti]
        rfl
      · show holdWeight (if n = i then _ else _) = _
        rw [if_neg hn]
    · show p.queue = [] → p.items < N
      rw [← hp]
      exact hroom
    · show p.reqs[_]? = _
      rw [← hp]
      exact last_get _ _

theorem hold_run_then {N : Nat} {x y z : PoolHold} {ms ms' : List HoldMove} (h : x.run N ms = some y)
    (h2 : y.run N ms' = some z) : x.run N (ms ++ ms') = some z := by
  induction ms generalizing x with
  | nil => cases h; exact h2
  | cons m ms ih =>
    unfold PoolHold.run at h
    obtain ⟨w, h3, h4⟩ := Option.bind_eq_some_iff.1 h
    rw [List.cons_append, PoolHold.run, h3]
    exact ih h4

/-- **C113.** Tasks that need at most `nᵢ` connections at a time, on a pool with more than `∑ (nᵢ - 1)` places, not
counting those lost to connections that could not be opened: whatever has happened, they have not locked each other up,
that is, they can come to their end, without any of them giving up.  (That an executor makes the polls for this is another
matter, see `C112_hang_violated`.) -/
theorem C113_no_deadlock (N : Nat) (jobs : Nat → List HoldOp) (tasks : Finset Nat) (ht : ∀ i, i ∉ tasks → jobs i = [])
    (ms : List HoldMove) (x : PoolHold) (h : (PoolHold.started jobs).run N ms = some x)
    (hb : ∑ i ∈ tasks, (peak 0 (jobs i) - 1) + Spec.broken x.pool < N) :
    ∃ ms' y, x.run N ms' = some y ∧ (∀ m ∈ ms', m.keepsOn = true) ∧ Spec.broken y.pool = Spec.broken x.pool ∧
      ∀ i, (y.task i).ended := by
  have hi := (HoldInv.started N jobs).run h
  clear h
  generalize hn : ∑ i ∈ tasks, holdWeight (x.task i) = n
  induction n using Nat.strong_induction_on generalizing x with
  | _ n ih =>
    by_cases hall : ∀ i, (x.task i).ended
    · exact ⟨[], x, rfl, by simp, rfl, hall⟩
    · obtain ⟨i0, hi0⟩ := not_forall.1 hall
      obtain ⟨ms1, y, hy, hk1, hby, i, hlt, hsame⟩ := hi.gains tasks ht hb hi0
      have hit : i ∈ tasks := by
        by_contra hit
        rw [hi.outside i (ht i hit)] at hlt
        exact absurd hlt (Nat.not_lt_zero _)
      have hsum : ∑ i ∈ tasks, holdWeight (y.task i) < n := by
        rw [← hn]
        refine Finset.sum_lt_sum (fun n _ => ?_) ⟨i, hit, hlt⟩
        by_cases hni : n = i
        · subst hni; exact hlt.le
        · exact (hsame n hni).le
      obtain ⟨ms2, z, hz, hk2, hbz, hend⟩ := ih _ hsum y (hby ▸ hb) (hi.run hy) rfl
      exact ⟨ms1 ++ ms2, z, hold_run_then hy hz, List.forall_mem_append.2 ⟨hk1, hk2⟩, hbz.trans hby, hend⟩

end Verif

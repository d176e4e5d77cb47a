import Verif.Model.Pool

/-! # Invariants of the connection pool -/

namespace Verif

namespace Spec

/-- the connection of a live `PoolItem`. -/
def heldBy (q : Req) : Option Nat :=
  match q.st with
  | .holding conn => some conn
  | _ => none

/-- connections in the hands of users, one entry per user. -/
def inUse (s : Pool) : List Nat := s.reqs.filterMap heldBy

def isCreating (q : Req) : Bool := q.st == .creating
/-- connections being created. -/
def creating (s : Pool) : Nat := s.reqs.countP isCreating

def isBroken (q : Req) : Bool := q.st == .failed || q.st == .dropped
/-- creations that failed or were dropped. -/
def broken (s : Pool) : Nat := s.reqs.countP isBroken

end Spec

theorem set_split {α : Type} {l : List α} {r : Nat} {q : α} (h : l[r]? = some q) :
    ∃ l1 l2, l = l1 ++ q :: l2 ∧ ∀ q', l.set r q' = l1 ++ q' :: l2 := by
  induction l generalizing r with
  | nil => simp at h
  | cons a l ih =>
    cases r with
    | zero =>
      simp at h
      subst h
      exact ⟨[], l, rfl, fun _ => rfl⟩
    | succ r =>
      simp at h
      obtain ⟨l1, l2, h1, h2⟩ := ih h
      exact ⟨a :: l1, l2, by rw [h1]; rfl, fun q' => by simp [h2]⟩

structure PoolInv (N : Nat) (s : Pool) : Prop where
  count : s.items = (Spec.inUse s).length + s.queue.length + Spec.creating s + Spec.broken s
  limit : s.items ≤ N
  lost : s.lost = []
  conns : ∀ x, (Spec.inUse s).count x + s.queue.count x = if x < s.born then 1 else 0
  loads : ∀ q ∈ s.reqs, ∀ reg k, q.st = .loaded reg k → k < N

theorem PoolInv.new (N : Nat) : PoolInv N Pool.new :=
  ⟨rfl, Nat.zero_le _, rfl, fun x => by simp [Pool.new, Spec.inUse], fun q hq => by simp [Pool.new] at hq⟩

/-- what a step does to the counts. -/
theorem PoolInv.step {N : Nat} {s s' : Pool} {e : PoolEv} (hi : PoolInv N s)
    (h : s.step N e = some s') : PoolInv N s' := by
  obtain ⟨hc, hl, hlo, hp, hk⟩ := hi
  by_cases he : e = .request
  · subst he
    cases h
    refine ⟨?_, hl, hlo, ?_, ?_⟩
    · simpa [Spec.inUse, Spec.creating, Spec.broken, Spec.heldBy, Spec.isCreating, Spec.isBroken,
        List.countP_append, List.filterMap_cons] using hc
    · simpa [Spec.inUse, Spec.heldBy, List.filterMap_cons] using hp
    · intro q hq reg k hs
      rcases List.mem_append.1 hq with hq | hq
      · exact hk q hq reg k hs
      · rw [List.mem_singleton] at hq
        rw [hq] at hs
        cases hs
  have h' : ∃ q, s.reqs[e.req]? = some q ∧ s.stepReq N e.req q e = some s' := by
    unfold Pool.step at h
    cases e with
    | request => exact absurd rfl he
    | _ =>
      dsimp only at h
      split at h
      · exact ⟨_, by assumption, h⟩
      · cases h
  obtain ⟨⟨st, aw⟩, hq, h⟩ := h'
  obtain ⟨l1, l2, h1, h2⟩ := set_split hq
  obtain ⟨items, queue, wakers, reqs, born, lost⟩ := s
  simp only at hc hl hlo hp h1 h2 hq hk
  subst h1 hlo
  have hk0 : ∀ reg k, st = .loaded reg k → k < N := fun reg k hs =>
    hk { st := st, awake := aw } (by simp) reg k hs
  have hk' : ∀ st' aw', (∀ reg k, st' = .loaded reg k → k < N) →
      ∀ q ∈ l1 ++ { st := st', awake := aw' } :: l2, ∀ reg k, q.st = .loaded reg k → k < N := by
    intro st' aw' h0 q hq reg k hs
    rcases List.mem_append.1 hq with hq | hq
    · exact hk q (by simp [hq]) reg k hs
    · rcases List.mem_cons.1 hq with hq | hq
      · subst hq
        exact h0 reg k hs
      · exact hk q (by simp [hq]) reg k hs
  clear hk
  simp only [Spec.inUse, Spec.creating, Spec.broken, List.filterMap_append, List.filterMap_cons,
    List.countP_append, List.countP_cons, List.length_append, List.count_append] at hc hp
  cases e with
  | request => exact absurd rfl he
  | _ =>
    simp only [PoolEv.req] at h h2
    cases st with
    | _ =>
      simp only [Pool.stepReq, reduceCtorEq] at h
      try (repeat' split at h)
      all_goals
        first
        | (cases h; done)
        | (simp only [Option.some.injEq] at h
           subst h
           simp only [Spec.heldBy, Spec.isCreating, Spec.isBroken] at hc hp
           try simp only [List.length_cons, List.length_nil, List.count_cons] at hc hp
           refine ⟨?_, ?_, ?_, ?_, by
             simp only [Pool.setReq, h2]
             refine hk' _ _ fun reg k hs => ?_
             first
             | (cases hs; done)
             | exact hk0 reg k hs
             | (injection hs with h3 h4; omega)⟩ <;>
             simp only [Pool.setReq, Spec.inUse, Spec.creating, Spec.broken, List.filterMap_append,
               List.filterMap_cons, List.countP_append, List.countP_cons, List.length_append,
               List.count_append, h2, Spec.heldBy, Spec.isCreating, Spec.isBroken, List.length_cons,
               List.length_nil, List.count_cons, List.count_nil] <;>
             simp at hc hp hk0 ⊢ <;> first | omega | (intro x; have := hp x; (repeat' split at this) <;> (repeat' split) <;> omega))

theorem PoolInv.run {N : Nat} {s s' : Pool} {es : List PoolEv} (hi : PoolInv N s)
    (h : s.run N es = some s') : PoolInv N s' := by
  induction es generalizing s with
  | nil => cases h; exact hi
  | cons e es ih =>
    unfold Pool.run at h
    match h1 : s.step N e with
    | some s1 => rw [h1] at h; exact ih (hi.step h1) h
    | none => rw [h1] at h; cases h

theorem Pool.run_append {N : Nat} {s s1 s2 : Pool} {es fs : List PoolEv} (h1 : s.run N es = some s1)
    (h2 : s1.run N fs = some s2) : s.run N (es ++ fs) = some s2 := by
  induction es generalizing s with
  | nil => cases h1; exact h2
  | cons e es ih =>
    rw [List.cons_append]
    unfold Pool.run at h1 ⊢
    match h3 : s.step N e with
    | some s3 => rw [h3] at h1; exact ih h1
    | none => rw [h3] at h1; cases h1

theorem Pool.runExec_append {N : Nat} {s s1 s2 : Pool} {es fs : List PoolEv}
    (h1 : s.runExec N es = some s1) (h2 : s1.runExec N fs = some s2) :
    s.runExec N (es ++ fs) = some s2 := by
  induction es generalizing s with
  | nil => cases h1; exact h2
  | cons e es ih =>
    rw [List.cons_append]
    unfold Pool.runExec at h1 ⊢
    by_cases ha : s.allowed e = true
    · rw [if_pos ha] at h1 ⊢
      match h3 : s.step N e with
      | some s3 => rw [h3] at h1; exact ih h1
      | none => rw [h3] at h1; cases h1
    · rw [if_neg ha] at h1; cases h1

theorem Pool.run_of_exec {N : Nat} {s s' : Pool} {es : List PoolEv} (h : s.runExec N es = some s') :
    s.run N es = some s' := by
  induction es generalizing s with
  | nil => exact h
  | cons e es ih =>
    unfold Pool.runExec at h
    unfold Pool.run
    by_cases ha : s.allowed e = true
    · rw [if_pos ha] at h
      match h3 : s.step N e with
      | some s3 => rw [h3] at h; exact ih h
      | none => rw [h3] at h; cases h
    · rw [if_neg ha] at h; cases h

/-- a step is a new request or a step of one of the requests. -/
theorem Pool.step_cases {N : Nat} {s s' : Pool} {e : PoolEv} (h : s.step N e = some s') :
    e = .request ∨ ∃ q, s.reqs[e.req]? = some q ∧ s.stepReq N e.req q e = some s' := by
  unfold Pool.step at h
  cases e with
  | request => exact .inl rfl
  | _ =>
    dsimp only at h
    split at h
    · exact .inr ⟨_, by assumption, h⟩
    · cases h

/-- a step of one request leaves the others alone. -/
theorem Pool.stepReq_others {N : Nat} {s s' : Pool} {r r' : Nat} {q : Req} {e : PoolEv}
    (h : s.stepReq N r q e = some s') (hne : r' ≠ r) : s'.reqs[r']? = s.reqs[r']? := by
  have hs : ∀ (t : Pool) (q' : Req), (t.setReq r q').reqs[r']? = t.reqs[r']? := by
    intro t q'
    unfold Pool.setReq
    exact List.getElem?_set_ne (fun hh => hne hh.symm)
  cases e with
  | request => cases h
  | _ =>
    obtain ⟨st, aw⟩ := q
    cases st with
    | _ =>
      simp only [Pool.stepReq, reduceCtorEq] at h
      try (repeat' split at h)
      all_goals
        first
        | (cases h; done)
        | (simp only [Option.some.injEq] at h
           subst h
           rw [hs])

end Verif

import Verif.Props.C114_Turn
import Verif.Spec.PoolEnough

/-!
# C115 — in a pool that is large enough nobody waits
-/

namespace Verif

open Spec (HasRoom FitsAll EnoughRun GetsServed outstanding isOut)

/-- in the middle of a poll, having found no idle connection. -/
def isLooking (q : Req) : Bool :=
  match q.st with
  | .empty _ | .loaded _ _ => true
  | _ => false

def isWaiting (q : Req) : Bool :=
  match q.st with
  | .waiting _ => true
  | _ => false

/-- what no request ever is: registered, or asleep. -/
def Lively (q : Req) : Prop :=
  q.st ≠ .full ∧ (∀ reg, q.st = .waiting reg → reg = false ∧ q.awake = true) ∧ (∀ reg, q.st = .empty reg → reg = false) ∧
    ∀ reg k, q.st = .loaded reg k → reg = false

theorem out_count (l : List Req) :
    (l.filterMap Spec.heldBy).length + l.countP Spec.isCreating + l.countP isLooking + l.countP isWaiting ≤ l.countP isOut := by
  induction l with
  | nil => simp
  | cons q l ih =>
    obtain ⟨st, aw⟩ := q
    cases st <;>
      simp [List.filterMap_cons, List.countP_cons, Spec.heldBy, Spec.isCreating, isLooking, isWaiting, isOut] <;> omega

structure EnoughInv (N : Nat) (s : Pool) : Prop where
  inv : PoolInv N s
  room : s.items + s.reqs.countP isLooking ≤ N
  lively : ∀ q ∈ s.reqs, Lively q
  wakers : s.wakers = []

theorem EnoughInv.new (N : Nat) : EnoughInv N Pool.new :=
  ⟨.new N, by simp [Pool.new], by simp [Pool.new], rfl⟩

theorem EnoughInv.step {N : Nat} {s s' : Pool} {e : PoolEv} (hi : EnoughInv N s) (hf : HasRoom N s)
    (h : s.step N e = some s') : EnoughInv N s' := by
  have hinv := hi.inv.step h
  refine ⟨hinv, ?_, ?_, ?_⟩ <;> clear hinv
  all_goals
    obtain ⟨⟨hc, -, -, -, -⟩, hroom, hlive, hw⟩ := hi
    by_cases he : e = .request
    · subst he
      cases h
      first
      | (simpa [List.countP_append, isLooking] using hroom)
      | (intro q hq
         rcases List.mem_append.1 hq with hq | hq
         · exact hlive q hq
         · rw [List.mem_singleton] at hq
           subst hq
           exact ⟨by simp, by simp, by simp, by simp⟩)
      | exact hw
    have h' : ∃ q, s.reqs[e.req]? = some q ∧ s.stepReq N e.req q e = some s' := by
      unfold Pool.step at h
      cases e with
      | request => exact absurd rfl he
      | _ =>
        dsimp only at h
        split at h
        · exact ⟨_, by assumption, h⟩
        · cases h
    obtain ⟨⟨st, aw⟩, hq, h⟩ := h'
    obtain ⟨l1, l2, h1, h2⟩ := set_split hq
    obtain ⟨items, queue, wakers, reqs, born, lost⟩ := s
    simp only at hc hroom hlive hw h1 h2 hq
    subst h1
    have hq0 : Lively ⟨st, aw⟩ := hlive _ (by simp)
    have c1 := out_count l1
    have c2 := out_count l2
    simp only [HasRoom, outstanding, Spec.inUse, Spec.creating, Spec.broken, List.filterMap_append, List.filterMap_cons,
      List.countP_append, List.countP_cons, List.length_append] at hc hf hroom
    have hset : ∀ q', Lively q' → ∀ q ∈ l1 ++ q' :: l2, Lively q := by
      intro q' h' q hq
      rcases List.mem_append.1 hq with hq | hq
      · exact hlive q (by simp [hq])
      · rcases List.mem_cons.1 hq with hq | hq
        · subst hq; exact h'
        · exact hlive q (by simp [hq])
    unfold Lively at hq0
    cases e with
    | request => exact absurd rfl he
    | _ =>
      simp only [PoolEv.req] at h h2
      cases st with
      | _ =>
        simp only [Pool.stepReq, reduceCtorEq] at h
        try (repeat' split at h)
        all_goals
          first
          | (cases h; done)
          | (simp only [Option.some.injEq] at h
             subst h
             simp only [Pool.setReq, h2]
             simp only [Spec.heldBy, Spec.isCreating, Spec.isBroken, isLooking, isOut] at hc hf hroom
             simp at hc hf hroom hq0
             all_goals
             first
             | exact hw
             | (simp only [List.countP_append, List.countP_cons, isLooking]
                simp
                omega)
             | (refine hset _ ⟨?_, ?_, ?_, ?_⟩ <;> simp <;> first | exact hq0 | exact hq0.1 | omega))

theorem EnoughInv.run {N : Nat} : ∀ {es : List PoolEv} {s s' : Pool}, EnoughInv N s → FitsAll N s es →
    s.run N es = some s' → EnoughInv N s'
  | [], s, s', hi, _, h => by
    cases h
    exact hi
  | e :: es, s, s', hi, hf, h => by
    unfold Pool.run at h
    split at h
    · rename_i s1 h1
      exact (hi.step hf.1 h1).run (hf.2 _ h1) h
    · cases h

theorem Spec.FitsAll.last {N : Nat} : ∀ {es : List PoolEv} {s s' : Pool}, FitsAll N s es → s.run N es = some s' → HasRoom N s'
  | [], s, s', hf, h => by
    cases h
    exact hf
  | e :: es, s, s', hf, h => by
    unfold Pool.run at h
    split at h
    · rename_i s1 h1
      exact Spec.FitsAll.last (hf.2 _ h1) h
    · cases h

/-- **C115.** As long as there is a place for every request, no request has to be woken by another: none is registered, and
every one that is between two polls is going to be polled. -/
theorem C115_awake (N : Nat) (es : List PoolEv) (s : Pool) (hf : FitsAll N Pool.new es) (h : Pool.new.run N es = some s) :
    s.wakers = [] ∧ ∀ (r : Nat) (q : Req), s.reqs[r]? = some q → q.st ≠ .full ∧ ∀ reg, q.st = .waiting reg → reg = false ∧ q.awake = true := by
  have hi := (EnoughInv.new N).run hf h
  exact ⟨hi.wakers, fun r q hq => ⟨(hi.lively q (List.mem_of_getElem? hq)).1, (hi.lively q (List.mem_of_getElem? hq)).2.1⟩⟩

/-- one that waits leaves a place free. -/
theorem fits_room {N : Nat} {s : Pool} (hf : HasRoom N s) {r : Nat} {q : Req} {reg : Bool} (hr : s.reqs[r]? = some q)
    (hq : q.st = .waiting reg) : (Spec.inUse s).length + Spec.creating s + Spec.broken s < N := by
  have hc := out_count s.reqs
  have hp : 0 < s.reqs.countP isWaiting :=
    List.countP_pos_iff.2 ⟨q, List.mem_of_getElem? hr, by simp [isWaiting, hq]⟩
  simp only [HasRoom, outstanding, Spec.inUse, Spec.creating, Spec.broken] at hf ⊢
  omega

/-- **C115**, a single poll: also under an executor that polls only what was woken, the next poll, if it is not disturbed,
ends with a connection or opens one. -/
theorem C115_served (N : Nat) (es : List PoolEv) (s : Pool) (hf : FitsAll N Pool.new es) (h : Pool.new.run N es = some s)
    (r : Nat) (reg w : Bool) (hr : s.reqs[r]? = some ⟨.waiting reg, w⟩) :
    (∃ s' c, s.runExec N [.pop r] = some s' ∧ s'.reqs[r]? = some ⟨.holding c, false⟩) ∨
      ∃ s', s.runExec N [.pop r, .load r s.items, .cas r] = some s' ∧ s'.reqs[r]? = some ⟨.creating, false⟩ := by
  have hroom := fits_room (hf.last h) hr rfl
  have hw : w = true := (((C115_awake N es s hf h).2 r _ hr).2 reg rfl).2
  subst hw
  have ha : s.allowed (.pop r) = true := by simp [Pool.allowed, hr]
  rcases C114_poll_partial N es s h r reg true hr hroom with ⟨s', c, h1, h2⟩ | ⟨s', h1, h2⟩
  · refine .inl ⟨s', c, ?_, h2⟩
    simpa [Pool.runExec, Pool.run, ha] using h1
  · refine .inr ⟨s', ?_, h2⟩
    have hl : ∀ (s : Pool) (k : Nat), s.allowed (.load r k) = true := fun _ _ => rfl
    have hx : ∀ s : Pool, s.allowed (.cas r) = true := fun _ => rfl
    simpa [Pool.runExec, Pool.run, ha, hl, hx] using h1

/-! ### executions without end -/

theorem Pool.step_shape {N : Nat} {s s' : Pool} {e : PoolEv} (h : s.step N e = some s') :
    s.items ≤ s'.items ∧
      ((e = .request ∧ s'.reqs = s.reqs ++ [⟨.waiting false, true⟩]) ∨
        e ≠ .request ∧ ∃ q q', s.reqs[e.req]? = some q ∧ s.stepReq N e.req q e = some s' ∧ s'.reqs = s.reqs.set e.req q') := by
  by_cases he : e = .request
  · subst he
    cases h
    exact ⟨Nat.le_refl _, .inl ⟨rfl, rfl⟩⟩
  · have h' : ∃ q, s.reqs[e.req]? = some q ∧ s.stepReq N e.req q e = some s' := by
      unfold Pool.step at h
      cases e with
      | request => exact absurd rfl he
      | _ =>
        dsimp only at h
        split at h
        · exact ⟨_, by assumption, h⟩
        · cases h
    obtain ⟨q, hq, h⟩ := h'
    have hs : s.items ≤ s'.items ∧ ∃ q', s'.reqs = s.reqs.set e.req q' := by
      obtain ⟨st, aw⟩ := q
      cases e with
      | request => exact absurd rfl he
      | _ =>
        cases st with
        | _ =>
          simp only [Pool.stepReq, reduceCtorEq] at h
          try (repeat' split at h)
          all_goals
            first
            | (cases h; done)
            | (simp only [Option.some.injEq] at h
               subst h
               exact ⟨by simp [Pool.setReq] <;> omega, _, rfl⟩)
    exact ⟨hs.1, .inr ⟨he, q, hs.2.choose, hq, h, hs.2.choose_spec⟩⟩

/-- what others do leaves a request as it is. -/
theorem Pool.step_others {N : Nat} {s s' : Pool} {e : PoolEv} (h : s.step N e = some s') {r : Nat} {q : Req}
    (hr : s.reqs[r]? = some q) (ho : ¬(e ≠ .request ∧ e.req = r)) : s'.reqs[r]? = some q := by
  rcases (Pool.step_shape h).2 with ⟨-, h2⟩ | ⟨he, q1, q', -, -, h2⟩
  · rw [h2, List.getElem?_append_left (List.getElem?_eq_some_iff.1 hr).1, hr]
  · rw [h2, List.getElem?_set_ne (fun h => ho ⟨he, h⟩), hr]

section
variable {N : Nat} {s : Nat → Pool} {m : Nat → Option PoolEv}

theorem Spec.EnoughRun.inv (hrun : EnoughRun N s m) : ∀ t, EnoughInv N (s t)
  | 0 => hrun.start ▸ EnoughInv.new N
  | t + 1 => by
    cases hm : m t with
    | none => rw [hrun.idle t hm]; exact hrun.inv t
    | some e => exact (hrun.inv t).step (hrun.fits t) (hrun.step t e hm)

theorem Spec.EnoughRun.mono (hrun : EnoughRun N s m) (t : Nat) : ∀ d, (s t).items ≤ (s (t + d)).items
  | 0 => Nat.le_refl _
  | d + 1 => by
    refine Nat.le_trans (hrun.mono t d) ?_
    cases hm : m (t + d) with
    | none => rw [← Nat.add_assoc, hrun.idle _ hm]
    | some e => exact (Pool.step_shape (hrun.step _ e hm)).1

/-- the first own step finds the request as it was. -/
theorem Spec.EnoughRun.first (hrun : EnoughRun N s m) {r : Nat} {q : Req} {e : PoolEv} :
    ∀ (d t : Nat), (s t).reqs[r]? = some q → m (t + d) = some e → e ≠ .request → e.req = r →
      ∃ t' e', t ≤ t' ∧ (s t').reqs[r]? = some q ∧ m t' = some e' ∧ e' ≠ .request ∧ e'.req = r
  | 0, t, hq, hm, he, hr => ⟨t, e, Nat.le_refl _, hq, hm, he, hr⟩
  | d + 1, t, hq, hm, he, hr => by
    have next : (s (t + 1)).reqs[r]? = some q →
        ∃ t' e', t ≤ t' ∧ (s t').reqs[r]? = some q ∧ m t' = some e' ∧ e' ≠ .request ∧ e'.req = r := by
      intro hn
      obtain ⟨t', e', h1, h2⟩ := hrun.first d (t + 1) hn (by rw [← hm]; congr 1; omega) he hr
      exact ⟨t', e', by omega, h2⟩
    cases hm' : m t with
    | none => exact next (by rw [hrun.idle t hm', hq])
    | some e' =>
      by_cases ho : e' ≠ .request ∧ e'.req = r
      · exact ⟨t, e', Nat.le_refl _, hq, hm', ho⟩
      · exact next (Pool.step_others (hrun.step t e' hm') hq ho)

theorem Spec.GetsServed.later {s : Nat → Pool} {r t t' : Nat} (h : GetsServed s r t') (hle : t ≤ t') : GetsServed s r t := by
  obtain ⟨t1, h1, h2⟩ := h
  exact ⟨t1, by omega, h2⟩

/-- a request with something to do makes a step, in the state it is in. -/
theorem Spec.EnoughRun.own (hrun : EnoughRun N s m) {r t : Nat} {q : Req} (hq : (s t).reqs[r]? = some q)
    (hp : (∃ reg, q.st = .waiting reg) ∨ (∃ reg, q.st = .empty reg) ∨ ∃ reg k, q.st = .loaded reg k) :
    ∃ t' e, t ≤ t' ∧ (s t').reqs[r]? = some q ∧ m t' = some e ∧ e.req = r ∧ (s t').stepReq N r q e = some (s (t' + 1)) ∧
      (s (t' + 1)).reqs[r]?.isSome := by
  have hp' : (∃ reg, q.st = .waiting reg) ∧ q.awake = true ∨ (∃ reg, q.st = .empty reg) ∨ ∃ reg k, q.st = .loaded reg k := by
    rcases hp with ⟨reg, h⟩ | h
    · exact .inl ⟨⟨reg, h⟩, (((hrun.inv t).lively q (List.mem_of_getElem? hq)).2.1 reg h).2⟩
    · exact .inr h
  obtain ⟨t1, e1, hle, hm, he, hr⟩ := hrun.polled t r q hq hp'
  obtain ⟨t', e, hle', hq', hm', he', hr'⟩ :=
    hrun.first (r := r) (q := q) (e := e1) (t1 - t) t hq (by rw [← hm]; congr 1; omega) he hr
  refine ⟨t', e, hle', hq', hm', hr', ?_⟩
  rcases (Pool.step_shape (hrun.step t' e hm')).2 with ⟨h, -⟩ | ⟨-, q1, q2, h1, h2, h3⟩
  · exact absurd h he'
  · rw [hr', hq'] at h1
    cases h1
    rw [hr'] at h2 h3
    refine ⟨h2, ?_⟩
    rw [h3, List.getElem?_set_self (List.getElem?_eq_some_iff.1 hq').1]
    rfl

/-- one that looks leaves a place in the counter. -/
theorem EnoughInv.looks {s : Pool} (hi : EnoughInv N s) {r : Nat} {q : Req} (hr : s.reqs[r]? = some q)
    (hq : isLooking q = true) : s.items < N := by
  have hp : 0 < s.reqs.countP isLooking := List.countP_pos_iff.2 ⟨q, List.mem_of_getElem? hr, hq⟩
  have := hi.room
  omega

theorem getElem?_setReq {s : Pool} {r : Nat} {q q' : Req} (hr : s.reqs[r]? = some q) :
    (s.setReq r q').reqs[r]? = some q' := by
  rw [Pool.setReq, List.getElem?_set_self (List.getElem?_eq_some_iff.1 hr).1]

/-- the counter as it is later. -/
theorem Spec.EnoughRun.le (hrun : EnoughRun N s m) {t t' : Nat} (h : t ≤ t') : (s t).items ≤ (s t').items := by
  have := hrun.mono t (t' - t)
  rwa [show t + (t' - t) = t' by omega] at this

/-- a poll comes to the exchange if it finds nothing. -/
theorem Spec.EnoughRun.emptied (hrun : EnoughRun N s m) {r t : Nat} {reg w : Bool}
    (hq : (s t).reqs[r]? = some ⟨.empty reg, w⟩) :
    ∃ t', t ≤ t' ∧ (s t').items < N ∧ (s t').reqs[r]? = some ⟨.loaded reg (s t').items, w⟩ := by
  obtain ⟨t5, e5, h5, hq5, hm5, her5, hs5, -⟩ := hrun.own hq (.inr (.inl ⟨reg, rfl⟩))
  have hN := (hrun.inv t5).looks hq5 rfl
  cases e5 <;> simp only [Pool.stepReq, reduceCtorEq] at hs5
  rename_i r' k'
  cases her5
  have hk' : k' = (s t5).items := hrun.fresh t5 _ k' hm5
  rw [hk', if_pos (Nat.le_refl _), if_pos hN, Option.some.injEq] at hs5
  have hi : (s (t5 + 1)).items = (s t5).items := by rw [← hs5]; rfl
  refine ⟨t5 + 1, by omega, by omega, ?_⟩
  rw [hi, ← hs5]
  exact getElem?_setReq hq5

theorem Spec.EnoughRun.waits (hrun : EnoughRun N s m) {r : Nat} (hnc : ∀ t, m t ≠ some (.cancel r)) {t : Nat} {reg w : Bool}
    (hq : (s t).reqs[r]? = some ⟨.waiting reg, w⟩) :
    GetsServed s r t ∨
      ∃ t', t ≤ t' ∧ (s t').items < N ∧ (s t').reqs[r]? = some ⟨.loaded reg (s t').items, false⟩ := by
  obtain ⟨t3, e3, h3, hq3, hm3, her3, hs3, -⟩ := hrun.own hq (.inl ⟨reg, rfl⟩)
  cases e3 <;> simp only [Pool.stepReq, reduceCtorEq] at hs3
  case cancel r' => cases her3; exact absurd hm3 (hnc t3)
  split at hs3
  · rename_i c rest _
    refine .inl ⟨t3 + 1, by omega, ⟨.holding c, false⟩, ?_, .inr ⟨c, rfl⟩⟩
    simp only [Option.some.injEq] at hs3
    rw [← hs3]
    exact getElem?_setReq (s := { s t3 with queue := rest }) hq3
  · simp only [Option.some.injEq] at hs3
    have hq4 : (s (t3 + 1)).reqs[r]? = some ⟨.empty reg, false⟩ := by rw [← hs3]; exact getElem?_setReq hq3
    obtain ⟨t', h', h2⟩ := hrun.emptied hq4
    exact .inr ⟨t', by omega, h2⟩

/-- from a loaded counter on; `n` is what is missing to `N`.  An exchange that fails means that the counter has grown. -/
theorem Spec.EnoughRun.loaded (hrun : EnoughRun N s m) {r : Nat} (hnc : ∀ t, m t ≠ some (.cancel r)) :
    ∀ (n t k : Nat) (reg w : Bool), N - k = n → k ≤ (s t).items → (s t).reqs[r]? = some ⟨.loaded reg k, w⟩ →
      GetsServed s r t := by
  intro n
  induction n using Nat.strongRecOn with
  | ind n ih =>
    intro t k reg w hn hk hq
    obtain ⟨t1, e, h1, hq1, hm, her, hs, -⟩ := hrun.own hq (.inr (.inr ⟨reg, k, rfl⟩))
    have hk1 := hrun.le h1
    cases e <;> simp only [Pool.stepReq, reduceCtorEq] at hs
    split at hs
    · refine ⟨t1 + 1, by omega, ⟨.creating, w⟩, ?_, .inl rfl⟩
      simp only [Option.some.injEq] at hs
      rw [← hs]
      exact getElem?_setReq (s := { s t1 with items := k + 1 }) hq1
    · rename_i hne
      simp only [Option.some.injEq] at hs
      have hi2 : (s (t1 + 1)).items = (s t1).items := by rw [← hs]; rfl
      have hq2 : (s (t1 + 1)).reqs[r]? = some ⟨.waiting reg, true⟩ := by rw [← hs]; exact getElem?_setReq hq1
      rcases hrun.waits hnc hq2 with h | ⟨t3, h3, hN, hq3⟩
      · exact h.later (by omega)
      · have hk3 := hrun.le h3
        exact (ih (N - (s t3).items) (by omega) t3 _ reg false rfl (Nat.le_refl _) hq3).later (by omega)

/-- **C115**, without end: as long as there is a place for every request, everyone who waits gets a connection or one is opened
for them, under every executor that polls what was woken, and nothing else, and whatever the others do. -/
theorem C115_fair (hrun : EnoughRun N s m) (r t : Nat) (reg w : Bool) (hq : (s t).reqs[r]? = some ⟨.waiting reg, w⟩)
    (hnc : ∀ t, m t ≠ some (.cancel r)) : GetsServed s r t := by
  rcases hrun.waits hnc hq with h | ⟨t3, h3, hN, hq3⟩
  · exact h
  · exact (hrun.loaded hnc _ t3 _ reg false rfl (Nat.le_refl _) hq3).later h3

end

/-! ### cases -/

/-- two places; both requests find nothing and load 0, the exchange of the second one fails. -/
def enoughEvs : List PoolEv :=
  [.request, .request, .pop 0, .pop 1, .load 0 0, .load 1 0, .cas 0, .cas 1, .pop 1, .load 1 1, .cas 1, .created 0, .created 1]

def enoughAt (t : Nat) : Pool := ((Pool.new.run 2 (enoughEvs.take t)).getD Pool.new)

def enoughFresh (s : Pool) : PoolEv → Bool
  | .load _ k => k == s.items
  | _ => true

theorem enoughAt_end {t : Nat} (h : 13 ≤ t) : enoughAt t = enoughAt 13 := by
  unfold enoughAt
  rw [List.take_of_length_le (by simpa [enoughEvs] using h)]
  rfl

theorem enough_run : EnoughRun 2 enoughAt (fun t => enoughEvs[t]?) where
  start := rfl
  idle := by
    intro t h
    have h : 13 ≤ t := by simpa [enoughEvs] using h
    rw [enoughAt_end h, enoughAt_end (by omega)]
  step := by
    intro t e h
    have ht : t < 13 := (List.getElem?_eq_some_iff.1 h).1
    have : ∀ t < 13, ∀ e ∈ enoughEvs[t]?, (enoughAt t).step 2 e = some (enoughAt (t + 1)) := by decide +kernel
    exact this t ht e h
  woken := by
    intro t e h
    have ht : t < 13 := (List.getElem?_eq_some_iff.1 h).1
    have : ∀ t < 13, ∀ e ∈ enoughEvs[t]?, (enoughAt t).allowed e = true := by decide +kernel
    exact this t ht e h
  fits := by
    have : ∀ t < 14, outstanding (enoughAt t) + Spec.broken (enoughAt t) ≤ 2 := by decide +kernel
    intro t
    by_cases h : t < 14
    · exact this t h
    · rw [enoughAt_end (by omega)]
      exact this 13 (by decide)
  fresh := by
    intro t r k h
    have ht : t < 13 := (List.getElem?_eq_some_iff.1 h).1
    have : ∀ t < 13, ∀ e ∈ enoughEvs[t]?, enoughFresh (enoughAt t) e = true := by decide +kernel
    simpa [enoughFresh] using this t ht _ h
  polled := by
    intro t r q hq hp
    have hlen : ∀ t < 14, (enoughAt t).reqs.length ≤ 2 := by decide +kernel
    have hst : ∀ t < 14, ∀ r < 2, t ≤ 11 + r ∨ (enoughAt t).reqs[r]? = some ⟨.holding r, false⟩ := by decide +kernel
    have key : ∀ t < 14, (enoughAt t).reqs[r]? = some q → r < 2 ∧ t ≤ 11 + r := by
      intro t ht hq
      have hr : r < 2 := Nat.lt_of_lt_of_le (List.getElem?_eq_some_iff.1 hq).1 (hlen t ht)
      refine ⟨hr, (hst t ht r hr).resolve_right fun h => ?_⟩
      rw [hq, Option.some.injEq] at h
      subst h
      simp at hp
    have hr : r < 2 ∧ t ≤ 11 + r := by
      by_cases ht : t < 14
      · exact key t ht hq
      · rw [enoughAt_end (by omega)] at hq
        have := key 13 (by decide) hq
        omega
    refine ⟨11 + r, .created r, hr.2, ?_, by simp, rfl⟩
    match r, hr.1 with
    | 0, _ => rfl
    | 1, _ => rfl

example : GetsServed enoughAt 1 8 :=
  C115_fair enough_run 1 8 false true (by decide +kernel) (by
    intro t h
    have ht : t < 13 := (List.getElem?_eq_some_iff.1 h).1
    have : ∀ t < 13, enoughEvs[t]? ≠ some (.cancel 1) := by decide +kernel
    exact this t ht h)

/-- one place less, and the second request is registered and not served. -/
example : ((Pool.new.run 1 (enoughEvs.take 8 ++ [.pop 1, .load 1 1, .register 1])).map fun s => (s.wakers, s.reqs[1]?)) =
    some ([1], some ⟨.waiting true, true⟩) := by
  decide +kernel

end Verif

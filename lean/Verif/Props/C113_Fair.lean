import Verif.Props.C113_Deadlock
import Verif.Spec.PoolFair

/-!
# C113 — tasks that are polled again and again come to their end
-/

namespace Verif

open Spec (PoolHold HoldTask HoldOp HoldMove FairRun peak)
open Spec.PoolTasks (isPoll reqState)

/-! ### what a move does -/

/-- a poll with which nothing is given up. -/
theorem poll_broken {N : Nat} {s s' : Pool} {e : PoolEv} (h : s.step N e = some s')
    (hk : ∀ i, (HoldMove.poll i e).keepsOn = true) : Spec.broken s' = Spec.broken s := by
  rcases Pool.step_cases h with rfl | ⟨⟨st, aw⟩, hr, hs⟩
  · unfold Pool.step at h
    injection h with h
    subst h
    show (s.reqs ++ _).countP _ = s.reqs.countP _
    rw [List.countP_append]
    rfl
  · show s'.reqs.countP _ = s.reqs.countP _
    cases e with
    | request => cases hs
    | cancel r => cases hk 0
    | createErr r => cases hk 0
    | _ =>
      cases st <;>
        (simp only [Pool.stepReq, reduceCtorEq] at hs
         try (repeat' split at hs)
         all_goals first
           | (cases hs; done)
           | (simp only [Option.some.injEq] at hs
              subst hs
              exact broken_set hr rfl))

section

variable {N : Nat} {jobs : Nat → List HoldOp} {x y : PoolHold} {a : HoldMove}

theorem hold_broken (hs : x.step N a = some y) (hk : a.keepsOn = true) : Spec.broken y.pool = Spec.broken x.pool := by
  unfold PoolHold.step at hs
  cases a with
  | ask i =>
    dsimp only at hs
    split at hs
    · obtain ⟨p, hp, rfl⟩ := Option.map_eq_some_iff.1 hs
      exact poll_broken hp fun _ => rfl
    · cases hs
  | poll i e =>
    dsimp only at hs
    split at hs
    · split at hs
      · obtain ⟨p, hp, rfl⟩ := Option.map_eq_some_iff.1 hs
        refine poll_broken hp fun j => ?_
        cases e <;> first | rfl | cases hk
      · cases hs
    · cases hs
  | next i =>
    dsimp only at hs
    split at hs
    · split at hs
      · obtain ⟨p, hp, rfl⟩ := Option.map_eq_some_iff.1 hs
        exact poll_broken hp fun _ => rfl
      · cases hs
        rfl
    · obtain ⟨p, hp, rfl⟩ := Option.map_eq_some_iff.1 hs
      exact poll_broken hp fun _ => rfl
    · cases hs
  | quit i => cases hk

/-- the move of a task changes no other task, nor its requests. -/
theorem HoldInv.others (h : HoldInv N jobs x) (hs : x.step N a = some y) {j : Nat} (hj : a.who ≠ j) :
    y.task j = x.task j ∧ ∀ r, HoldHas (x.task j) r → y.pool.reqs[r]? = x.pool.reqs[r]? := by
  have key : ∀ (i : Nat) (p : Pool) (t : HoldTask), i ≠ j →
      (∀ r, HoldHas (x.task j) r → p.reqs[r]? = x.pool.reqs[r]?) →
      (x.set p i t).task j = x.task j ∧ ∀ r, HoldHas (x.task j) r → (x.set p i t).pool.reqs[r]? = x.pool.reqs[r]? :=
    fun i p t hi hp => ⟨if_neg fun e => hi e.symm, hp⟩
  have apart : ∀ (i r r' : Nat), i ≠ j → HoldHas (x.task i) r → HoldHas (x.task j) r' → r' ≠ r := by
    rintro i r _ hi hr hr' rfl
    exact hi (h.alone _ _ _ hr hr')
  have put : ∀ (i r : Nat) (p : Pool), i ≠ j → r ∈ (x.task i).held → x.pool.step N (.put r) = some p →
      ∀ r', HoldHas (x.task j) r' → p.reqs[r']? = x.pool.reqs[r']? := by
    intro i r p hi hr hp r' hr'
    obtain ⟨q, q', k, hq, -, hset, -⟩ := step_put hp
    rw [hset, List.getElem?_set_ne (fun e => apart i r r' hi (.inr hr) hr' e.symm)]
  unfold PoolHold.step at hs
  cases a with
  | ask i =>
    dsimp only at hs
    split at hs
    · obtain ⟨p, hp, rfl⟩ := Option.map_eq_some_iff.1 hs
      refine key _ _ _ hj fun r hr => ?_
      unfold Pool.step at hp
      injection hp with hp
      subst hp
      exact List.getElem?_append_left (h.has_lt hr)
    · cases hs
  | poll i e =>
    dsimp only at hs
    split at hs
    next r hw =>
      split at hs
      next he =>
        obtain ⟨rfl, he⟩ := he
        obtain ⟨p, hp, rfl⟩ := Option.map_eq_some_iff.1 hs
        refine key _ _ _ hj fun r hr => ?_
        obtain ⟨q, q', hq, hset, -⟩ := step_poll he hp
        rw [hset, List.getElem?_set_ne (fun e' => apart i _ r hj (.inl hw) hr e'.symm)]
      · cases hs
    · cases hs
  | next i =>
    dsimp only at hs
    split at hs
    next held j' rest ht =>
      split at hs
      next r hr =>
        obtain ⟨p, hp, rfl⟩ := Option.map_eq_some_iff.1 hs
        exact key _ _ _ hj (put i r p hj (by rw [ht]; exact List.mem_of_getElem? hr) hp)
      · cases hs
        exact key _ _ _ hj fun r _ => rfl
    next r held ht =>
      obtain ⟨p, hp, rfl⟩ := Option.map_eq_some_iff.1 hs
      exact key _ _ _ hj (put i r p hj (by rw [ht]; exact List.mem_cons_self) hp)
    · cases hs
  | quit i =>
    dsimp only at hs
    split at hs
    · cases hs
      exact key _ _ _ hj fun r _ => rfl
    · cases hs

/-- dropping leaves less to do. -/
theorem next_weight {i : Nat} (hs : x.step N (.next i) = some y) : holdWeight (y.task i) < holdWeight (x.task i) := by
  have hti : ∀ (p : Pool) (t : HoldTask), (x.set p i t).task i = t := fun p t => if_pos rfl
  unfold PoolHold.step at hs
  dsimp only at hs
  split at hs
  next held j' rest ht =>
    split at hs
    · obtain ⟨p, hp, rfl⟩ := Option.map_eq_some_iff.1 hs
      rw [hti, ht]
      unfold holdWeight
      simp only [List.length_cons]
      have := List.length_eraseIdx_le held j'
      omega
    · cases hs
      rw [hti, ht]
      unfold holdWeight
      simp only [List.length_cons]
      omega
  next r held ht =>
    obtain ⟨p, hp, rfl⟩ := Option.map_eq_some_iff.1 hs
    rw [hti, ht]
    unfold holdWeight
    simp
  · cases hs

/-- how far a request is from a connection, `e` says whether none is idle. -/
def reqRank (e : Bool) (items : Nat) : ReqState → Nat
  | .waiting _ => if e then 2 else 0
  | .empty _ => if e then 1 else 2
  | .loaded _ k => if e then (if k = items then 0 else 3) else 1
  | .full => if e then 3 else 1
  | _ => 0

/-- how far a task is from its next connection. -/
def holdRank (x : PoolHold) (i : Nat) : Nat :=
  match (x.task i).want with
  | none => 3
  | some r =>
    match reqState x.pool r with
    | some st => reqRank x.pool.queue.isEmpty x.pool.items st
    | none => 0

/-- a connection is being opened. -/
def Opening (x : PoolHold) : Prop := ∃ (r : Nat) (w : Bool), x.pool.reqs[r]? = some { st := .creating, awake := w }

/-- a poll gets a connection, or begins to open one, or changes neither the queue nor the counter. -/
theorem poll_progress {s s' : Pool} {e : PoolEv} {r : Nat} {q : Req} (he : isPoll e = true) (hr : e.req = r)
    (hq : s.reqs[r]? = some q) (hk : ∀ i, (HoldMove.poll i e).keepsOn = true) (h : s.step N e = some s') :
    (∃ k, reqState s' r = some (.holding k)) ∨ (∃ w : Bool, s'.reqs[r]? = some { st := .creating, awake := w }) ∨
      (s'.items = s.items ∧ s'.queue = s.queue ∧ ∃ st, reqState s' r = some st ∧ st.over = false ∧ (∀ k, st ≠ .holding k) ∧
        ((s.queue = [] → s.items < N) → (∀ k, e = .load r k → k = s.items) →
          reqRank s.queue.isEmpty s.items st < reqRank s.queue.isEmpty s.items q.st)) := by
  subst hr
  have hlen := (List.getElem?_eq_some_iff.1 hq).1
  have hnew : ∀ (t : Pool) (q' : Req), t.reqs = s.reqs → (t.setReq e.req q').reqs[e.req]? = some q' := by
    intro t q' ht
    show (t.reqs.set e.req q')[e.req]? = _
    rw [ht]
    simp [hlen]
  have hst : ∀ (t : Pool) (q' : Req), t.reqs = s.reqs → reqState (t.setReq e.req q') e.req = some q'.st := by
    intro t q' ht
    unfold reqState
    rw [hnew t q' ht]
    rfl
  rcases Pool.step_cases h with rfl | ⟨⟨st, aw⟩, hr, hs⟩
  · cases he
  · rw [hq] at hr
    injection hr with hr
    subst hr
    cases e with
    | request => cases he
    | put r => cases he
    | cancel r => cases hk 0
    | createErr r => cases hk 0
    | pop r =>
      cases st <;> simp only [Pool.stepReq, reduceCtorEq] at hs
      split at hs
      next conn rest hqu =>
        simp only [Option.some.injEq] at hs
        subst hs
        exact .inl ⟨conn, hst { s with queue := rest } _ rfl⟩
      next hqu =>
        simp only [Option.some.injEq] at hs
        subst hs
        refine .inr (.inr ⟨rfl, rfl, _, hst s _ rfl, rfl, by simp, fun _ _ => ?_⟩)
        simp [reqRank, hqu]
    | load r k =>
      cases st <;> simp only [Pool.stepReq, reduceCtorEq] at hs
      next reg =>
        split at hs
        · split at hs
          next hk1 =>
            simp only [Option.some.injEq] at hs
            subst hs
            refine .inr (.inr ⟨rfl, rfl, _, hst s _ rfl, rfl, by simp, fun _ hf => ?_⟩)
            have := hf k rfl
            subst this
            cases hqu : s.queue <;> simp [reqRank]
          next hk1 =>
            split at hs
            · simp only [Option.some.injEq] at hs
              subst hs
              refine .inr (.inr ⟨rfl, rfl, _, hst s _ rfl, rfl, by simp, fun hroom hf => ?_⟩)
              have := hf k rfl
              subst this
              cases hqu : s.queue with
              | nil => exact absurd (hroom hqu) hk1
              | cons c cs => simp [reqRank]
            · simp only [Option.some.injEq] at hs
              subst hs
              refine .inr (.inr ⟨rfl, rfl, _, hst s _ rfl, rfl, by simp, fun hroom hf => ?_⟩)
              have := hf k rfl
              subst this
              cases hqu : s.queue with
              | nil => exact absurd (hroom hqu) hk1
              | cons c cs => simp [reqRank]
        · cases hs
    | cas r =>
      cases st <;> simp only [Pool.stepReq, reduceCtorEq] at hs
      next reg k =>
        split at hs
        next hk1 =>
          simp only [Option.some.injEq] at hs
          subst hs
          exact .inr (.inl ⟨aw, hnew { s with items := k + 1 } _ rfl⟩)
        next hk1 =>
          simp only [Option.some.injEq] at hs
          subst hs
          refine .inr (.inr ⟨rfl, rfl, _, hst s _ rfl, rfl, by simp, fun _ _ => ?_⟩)
          have hk2 : k ≠ s.items := fun e => hk1 e.symm
          cases hqu : s.queue <;> simp [reqRank, hk2]
    | register r =>
      cases st <;> simp only [Pool.stepReq, reduceCtorEq] at hs
      simp only [Option.some.injEq] at hs
      subst hs
      refine .inr (.inr ⟨rfl, rfl, _, hst { s with wakers := s.wakers ++ [r] } _ rfl, rfl, by simp, fun _ _ => ?_⟩)
      cases hqu : s.queue <;> simp [reqRank]
    | created r =>
      cases st <;> simp only [Pool.stepReq, reduceCtorEq] at hs
      simp only [Option.some.injEq] at hs
      subst hs
      exact .inl ⟨s.born, hst { s with born := s.born + 1 } _ rfl⟩

/-- a move leaves its task less to do, or begins to open a connection, or brings the task nearer to its connection
without changing the queue and the counter. -/
theorem HoldInv.progress (h : HoldInv N jobs x) (hs : x.step N a = some y) (hk : a.keepsOn = true) :
    holdWeight (y.task a.who) < holdWeight (x.task a.who) ∨ Opening y ∨
      (holdWeight (y.task a.who) = holdWeight (x.task a.who) ∧ y.pool.items = x.pool.items ∧ y.pool.queue = x.pool.queue ∧
        ((x.pool.queue = [] → x.pool.items < N) → (∀ i r k, a = .poll i (.load r k) → k = x.pool.items) →
          holdRank y a.who < holdRank x a.who)) := by
  cases a with
  | quit i => cases hk
  | next i => exact .inl (next_weight hs)
  | ask i =>
    unfold PoolHold.step at hs
    dsimp only at hs
    split at hs
    next held rest ht =>
      obtain ⟨p, hp, rfl⟩ := Option.map_eq_some_iff.1 hs
      unfold Pool.step at hp
      injection hp with hp
      subst hp
      refine .inr (.inr ⟨?_, rfl, rfl, fun _ _ => ?_⟩)
      · show holdWeight (if i = i then _ else _) = holdWeight (x.task i)
        rw [if_pos rfl, ht]
        rfl
      · show holdRank _ i < holdRank x i
        unfold holdRank
        have hti : ∀ (p : Pool) (t : HoldTask), (x.set p i t).task i = t := fun p t => if_pos rfl
        rw [hti, ht]
        dsimp only
        have : reqState (x.set { x.pool with reqs := x.pool.reqs ++ [{ st := .waiting false, awake := true }] } i
            ⟨held, some x.pool.reqs.length, .get :: rest⟩).pool x.pool.reqs.length = some (.waiting false) := by
          unfold reqState
          show Option.map _ ((x.pool.reqs ++ _)[_]?) = _
          rw [last_get]
          rfl
        rw [this]
        dsimp only
        show (if _ then 2 else 0) < 3
        split <;> omega
    · cases hs
  | poll i e =>
    unfold PoolHold.step at hs
    dsimp only at hs
    split at hs
    next r hw =>
      split at hs
      next he =>
        obtain ⟨hr, he⟩ := he
        obtain ⟨p, hp, rfl⟩ := Option.map_eq_some_iff.1 hs
        have hti : ∀ (p : Pool) (t : HoldTask), (x.set p i t).task i = t := fun p t => if_pos rfl
        obtain ⟨⟨q, hq, -, -⟩, rest, hrest⟩ := h.waits i r hw
        show holdWeight ((x.set _ i _).task i) < _ ∨ _
        rcases poll_progress he hr hq (fun j => by cases e <;> first | rfl | cases hk) hp with
          ⟨k, hst⟩ | ⟨w, hc⟩ | ⟨h1, h2, st, hst, ho, hn, hrank⟩
        · left
          rw [hti, hst]
          show holdWeight ⟨r :: (x.task i).held, none, (x.task i).rest.tail⟩ < holdWeight (x.task i)
          unfold holdWeight
          rw [hrest]
          simp only [List.tail_cons, List.length_cons]
          omega
        · exact .inr (.inl ⟨r, w, hc⟩)
        · have hpol : (x.task i).polled r (reqState p r) = x.task i := by
            rw [hst]
            cases st with
            | holding k => exact absurd rfl (hn k)
            | failed => cases ho
            | dropped => cases ho
            | gone => cases ho
            | _ => rfl
          rw [hpol]
          refine .inr (.inr ⟨?_, h1, h2, fun hroom hf => ?_⟩)
          · show holdWeight ((x.set _ i _).task i) = holdWeight (x.task i)
            rw [hti]
          · have hlt := hrank hroom fun k hek => hf i r k (by rw [hek])
            show holdRank _ i < holdRank x i
            unfold holdRank
            rw [hti, hw]
            dsimp only
            have hs1 : reqState (x.set p i (x.task i)).pool r = some st := hst
            have hs2 : reqState x.pool r = some q.st := by unfold reqState; rw [hq]; rfl
            rw [hs1, hs2]
            dsimp only
            show reqRank p.queue.isEmpty p.items st < _
            rw [h1, h2]
            exact hlt
      · cases hs
    · cases hs

/-- who has nothing left to do has ended. -/
theorem HoldInv.ended_iff (h : HoldInv N jobs x) (i : Nat) : (x.task i).ended ↔ holdWeight (x.task i) = 0 := by
  unfold holdWeight
  constructor
  · rintro ⟨h1, -, h3⟩
    rw [h1, h3]
    rfl
  · intro h0
    have h1 : (x.task i).held = [] := List.length_eq_zero_iff.1 (by omega)
    have h3 : (x.task i).rest = [] := List.length_eq_zero_iff.1 (by omega)
    refine ⟨h1, ?_, h3⟩
    match hw : (x.task i).want with
    | none => rfl
    | some r =>
      obtain ⟨-, rest, hr⟩ := h.waits i r hw
      rw [h3] at hr
      cases hr

end

/-! ### executions without end -/

section

variable {N : Nat} {jobs : Nat → List HoldOp} {x : Nat → PoolHold} {m : Nat → Option HoldMove}

theorem Spec.FairRun.inv (hf : FairRun N x m) (h0 : HoldInv N jobs (x 0)) (t : Nat) : HoldInv N jobs (x t) := by
  induction t with
  | zero => exact h0
  | succ t ih =>
    match hm : m t with
    | none => rw [hf.idle t hm]; exact ih
    | some a => exact ih.step (hf.step t a hm)

theorem Spec.FairRun.broken (hf : FairRun N x m) (t : Nat) : Spec.broken (x t).pool = Spec.broken (x 0).pool := by
  induction t with
  | zero => rfl
  | succ t ih =>
    match hm : m t with
    | none => rw [hf.idle t hm]; exact ih
    | some a => exact (hold_broken (hf.step t a hm) (hf.keeps t a hm)).trans ih

/-- nobody gets more to do. -/
theorem Spec.FairRun.weight (hf : FairRun N x m) (h0 : HoldInv N jobs (x 0)) (t i : Nat) :
    holdWeight ((x (t + 1)).task i) ≤ holdWeight ((x t).task i) := by
  have hi := hf.inv h0 t
  match hm : m t with
  | none => rw [hf.idle t hm]
  | some a =>
    have hs := hf.step t a hm
    by_cases hw : a.who = i
    · subst hw
      have hk := hf.keeps t a hm
      cases a with
      | quit i => cases hk
      | next i => exact (next_weight hs).le
      | ask i =>
        rcases hi.progress hs hk with h | ⟨r, w, hc⟩ | ⟨h, -⟩
        · exact h.le
        · unfold PoolHold.step at hs
          dsimp only at hs
          split at hs
          next held rest ht =>
            obtain ⟨p, hp, hy⟩ := Option.map_eq_some_iff.1 hs
            rw [← hy]
            show holdWeight (if i = i then _ else _) ≤ holdWeight ((x t).task i)
            rw [if_pos rfl, ht]
            exact Nat.le_refl _
          · cases hs
        · exact h.le
      | poll i e =>
        unfold PoolHold.step at hs
        dsimp only at hs
        split at hs
        next r hw =>
          split at hs
          · obtain ⟨p, hp, hy⟩ := Option.map_eq_some_iff.1 hs
            rw [← hy]
            obtain ⟨-, rest, hrest⟩ := hi.waits i r hw
            show holdWeight (if i = i then _ else _) ≤ holdWeight ((x t).task i)
            rw [if_pos rfl]
            unfold HoldTask.polled
            split
            · unfold holdWeight
              rw [hrest]
              simp only [List.tail_cons, List.length_cons]
              omega
            all_goals exact Nat.le_refl _
          · cases hs
        · cases hs
    · rw [(hi.others hs hw).1]

/-- the next move of a task that has not ended; until then it and its requests stay as they are. -/
theorem Spec.FairRun.next_own (hf : FairRun N x m) (h0 : HoldInv N jobs (x 0)) {t i : Nat} (hi : ¬((x t).task i).ended) :
    ∃ t' a, t ≤ t' ∧ m t' = some a ∧ a.who = i ∧ (∀ s, t ≤ s → s < t' → ∀ b, m s = some b → b.who ≠ i) ∧
      (x t').task i = (x t).task i ∧
      ∀ r, HoldHas ((x t).task i) r → (x t').pool.reqs[r]? = (x t).pool.reqs[r]? := by
  classical
  obtain ⟨t1, ht1, a1, ha1, hw1⟩ := hf.fair t i hi
  have hex : ∃ n, ∃ a, m (t + n) = some a ∧ a.who = i := ⟨t1 - t, a1, by rw [Nat.add_sub_cancel' ht1]; exact ha1, hw1⟩
  obtain ⟨a, ha, hw⟩ := Nat.find_spec hex
  have hmin := fun n (hn : n < Nat.find hex) => Nat.find_min hex hn
  generalize Nat.find hex = n at ha hmin
  have hbefore : ∀ s, t ≤ s → s < t + n → ∀ b, m s = some b → b.who ≠ i := by
    intro s h1 h2 b hb hbw
    exact hmin (s - t) (by omega) ⟨b, by rw [Nat.add_sub_cancel' h1]; exact hb, hbw⟩
  refine ⟨t + n, a, by omega, ha, hw, hbefore, ?_⟩
  clear ha hw hmin
  induction n with
  | zero => exact ⟨rfl, fun _ _ => rfl⟩
  | succ n ih =>
    obtain ⟨h1, h2⟩ := ih fun s hs1 hs2 => hbefore s hs1 (by omega)
    match hm : m (t + n) with
    | none =>
      rw [← Nat.add_assoc, hf.idle _ hm]
      exact ⟨h1, h2⟩
    | some b =>
      obtain ⟨h3, h4⟩ := (hf.inv h0 (t + n)).others (hf.step _ b hm) (hbefore (t + n) (by omega) (by omega) b hm)
      rw [← Nat.add_assoc]
      exact ⟨h3.trans h1, fun r hr => (h4 r (by rw [h1]; exact hr)).trans (h2 r hr)⟩

/-- **C113.** Tasks that need at most `nᵢ` connections at a time, on a pool with more than `∑ (nᵢ - 1)` places, not
counting those lost: in every execution from any state they have got into, in which every task that has not ended is
polled again and again, woken or not, and from now on no connection fails and nobody gives up, all of them end. -/
theorem C113_fair (N : Nat) (jobs : Nat → List HoldOp) (tasks : Finset Nat) (ht : ∀ i, i ∉ tasks → jobs i = [])
    (ms : List HoldMove) (x : Nat → PoolHold) (m : Nat → Option HoldMove)
    (h : (PoolHold.started jobs).run N ms = some (x 0)) (hf : FairRun N x m)
    (hb : ∑ i ∈ tasks, (peak 0 (jobs i) - 1) + Spec.broken (x 0).pool < N) :
    ∃ T, ∀ t, T ≤ t → ∀ i, ((x t).task i).ended := by
  classical
  have h0 : HoldInv N jobs (x 0) := (HoldInv.started N jobs).run h
  clear h
  -- the time when there is least left to do
  have hex : ∃ n t, ∑ i ∈ tasks, holdWeight ((x t).task i) = n := ⟨_, 0, rfl⟩
  obtain ⟨T, hT⟩ := Nat.find_spec hex
  have hmin : ∀ t, ∑ i ∈ tasks, holdWeight ((x T).task i) ≤ ∑ i ∈ tasks, holdWeight ((x t).task i) := by
    intro t
    rw [hT]
    exact Nat.find_min' hex ⟨t, rfl⟩
  clear hT
  have hmono : ∀ t n i, holdWeight ((x (t + n)).task i) ≤ holdWeight ((x t).task i) := by
    intro t n i
    induction n with
    | zero => exact Nat.le_refl _
    | succ n ih => exact (hf.weight h0 (t + n) i).trans ih
  have hout : ∀ t i, i ∉ tasks → holdWeight ((x t).task i) = 0 := by
    intro t i hi
    rw [(hf.inv h0 t).outside i (ht i hi)]
    rfl
  -- from then on nobody's work gets less
  have hconst : ∀ t, T ≤ t → ∀ i, ¬holdWeight ((x (t + 1)).task i) < holdWeight ((x t).task i) := by
    intro t hTt i hlt
    have hi : i ∈ tasks := by
      by_contra hi
      rw [hout t i hi] at hlt
      exact absurd hlt (Nat.not_lt_zero _)
    have h1 : ∑ i ∈ tasks, holdWeight ((x (t + 1)).task i) < ∑ i ∈ tasks, holdWeight ((x t).task i) :=
      Finset.sum_lt_sum (fun n _ => hf.weight h0 t n) ⟨i, hi, hlt⟩
    have h2 : ∑ i ∈ tasks, holdWeight ((x t).task i) ≤ ∑ i ∈ tasks, holdWeight ((x T).task i) := by
      obtain ⟨n, rfl⟩ := Nat.exists_eq_add_of_le hTt
      exact Finset.sum_le_sum fun i _ => hmono T n i
    have := hmin (t + 1)
    omega
  -- nobody can drop anything
  have F1 : ∀ t, T ≤ t → ∀ i, ((x t).task i).ended ∨ ∃ rest, ((x t).task i).rest = .get :: rest := by
    intro t hTt i
    by_contra hcon
    rw [not_or] at hcon
    obtain ⟨hne, hng⟩ := hcon
    obtain ⟨t', a, htt', hm, hw, -, htask, -⟩ := hf.next_own h0 hne
    have hs := hf.step t' a hm
    have hi := hf.inv h0 t'
    rw [← htask] at hng
    cases a with
    | quit j => cases hf.keeps t' _ hm
    | next j =>
      have : j = i := hw
      subst this
      exact hconst t' (hTt.trans htt') j (next_weight hs)
    | ask j =>
      have : j = i := hw
      subst this
      unfold PoolHold.step at hs
      dsimp only at hs
      split at hs
      next held rest hta => exact hng ⟨rest, by rw [hta]⟩
      · cases hs
    | poll j e =>
      have : j = i := hw
      subst this
      unfold PoolHold.step at hs
      dsimp only at hs
      split at hs
      next r hwant => exact hng (hi.waits j r hwant).2
      · cases hs
  -- no connection is being opened
  have F2 : ∀ t, T ≤ t → ¬Opening (x t) := by
    rintro t hTt ⟨r, w, hq⟩
    have hi := hf.inv h0 t
    obtain ⟨i, hown⟩ := hi.owned r _ hq rfl
    have hwant : ((x t).task i).want = some r := by
      rcases hown with hown | hown
      · exact hown
      · obtain ⟨k, w', hk⟩ := hi.holds i r hown
        rw [hq] at hk
        cases hk
    have hne : ¬((x t).task i).ended := by
      rintro ⟨-, h2, -⟩
      rw [hwant] at h2
      cases h2
    obtain ⟨t', a, htt', hm, hw, -, htask, hreq⟩ := hf.next_own h0 hne
    have hs := hf.step t' a hm
    have hq' := (hreq r hown).trans hq
    have hwant' : ((x t').task i).want = some r := by rw [htask]; exact hwant
    have hi' := hf.inv h0 t'
    cases a with
    | quit j => cases hf.keeps t' _ hm
    | next j =>
      have : j = i := hw
      subst this
      exact hconst t' (hTt.trans htt') j (next_weight hs)
    | ask j =>
      have : j = i := hw
      subst this
      unfold PoolHold.step at hs
      dsimp only at hs
      split at hs
      next held rest hta => rw [hta] at hwant'; cases hwant'
      · cases hs
    | poll j e =>
      have : j = i := hw
      subst this
      have hk := hf.keeps t' _ hm
      obtain ⟨-, rest, hrest⟩ := hi'.waits j r hwant'
      unfold PoolHold.step at hs
      dsimp only at hs
      rw [hwant'] at hs
      dsimp only at hs
      split at hs
      next he =>
        obtain ⟨her, he⟩ := he
        obtain ⟨p, hp, hy⟩ := Option.map_eq_some_iff.1 hs
        refine hconst t' (hTt.trans htt') j ?_
        rw [← hy]
        subst her
        have hhold : ∃ k, reqState p e.req = some (.holding k) := by
          rcases Pool.step_cases hp with rfl | ⟨q, hr, hsr⟩
          · cases he
          · rw [hq'] at hr
            injection hr with hr
            subst hr
            cases e with
            | created r =>
              simp only [Pool.stepReq, Option.some.injEq] at hsr
              subst hsr
              refine ⟨(x t').pool.born, ?_⟩
              have hlen : r < (x t').pool.reqs.length := (List.getElem?_eq_some_iff.1 hq').1
              show Option.map _ (((x t').pool.reqs.set r _)[r]?) = _
              rw [List.getElem?_set_self hlen]
              rfl
            | createErr r => cases hk
            | cancel r => cases hk
            | _ => simp [Pool.stepReq] at hsr
        obtain ⟨k, hk2⟩ := hhold
        rw [hk2]
        show holdWeight (if j = j then _ else _) < _
        rw [if_pos rfl]
        show holdWeight ⟨_ :: ((x t').task j).held, none, ((x t').task j).rest.tail⟩ < holdWeight ((x t').task j)
        unfold holdWeight
        rw [hrest]
        simp only [List.tail_cons, List.length_cons]
        omega
      · cases hs
  -- there is room
  have F3 : ∀ t, T ≤ t → (x t).pool.queue = [] → (x t).pool.items < N := by
    intro t hTt hqu
    have hi := hf.inv h0 t
    have hheld : ∀ i, ((x t).task i).held.length ≤ peak 0 (jobs i) - 1 := by
      intro i
      rcases F1 t hTt i with ⟨h1, -⟩ | ⟨rest, hrest⟩
      · rw [h1]
        exact Nat.zero_le _
      · have h1 := hi.peaks i
        rw [hrest] at h1
        have h2 : ((x t).task i).held.length + 1 ≤ peak ((x t).task i).held.length (.get :: rest) := peak_ge rest _
        omega
    obtain ⟨es, hes⟩ := hi.pool
    have hc := ((PoolInv.new N).run hes).count
    have h1 := hi.in_use tasks ht
    have h2 : ∑ i ∈ tasks, ((x t).task i).held.length ≤ ∑ i ∈ tasks, (peak 0 (jobs i) - 1) :=
      Finset.sum_le_sum fun i _ => hheld i
    have h3 : Spec.creating (x t).pool = 0 := by
      unfold Spec.creating
      rw [List.countP_eq_zero]
      rintro ⟨st, w⟩ hq
      obtain ⟨r, hr⟩ := List.getElem?_of_mem hq
      cases st with
      | creating => exact absurd ⟨r, w, hr⟩ (F2 t hTt)
      | _ => simp [Spec.isCreating]
    rw [h3, hqu, List.length_nil] at hc
    have h4 := hf.broken t
    omega
  -- queue and counter stay
  have F4 : ∀ t n, T ≤ t → (x (t + n)).pool.items = (x t).pool.items ∧ (x (t + n)).pool.queue = (x t).pool.queue := by
    intro t n hTt
    induction n with
    | zero => exact ⟨rfl, rfl⟩
    | succ n ih =>
      rw [← Nat.add_assoc]
      match hm : m (t + n) with
      | none => rw [hf.idle _ hm]; exact ih
      | some a =>
        rcases (hf.inv h0 (t + n)).progress (hf.step _ a hm) (hf.keeps _ a hm) with h | h | ⟨-, h1, h2, -⟩
        · exact absurd h (hconst _ (by omega) _)
        · exact absurd h (F2 _ (by omega))
        · exact ⟨h1.trans ih.1, h2.trans ih.2⟩
  have hend : ∀ i, ((x T).task i).ended := by
    intro i
    by_contra hne
    have hnever : ∀ t, T ≤ t → ¬((x t).task i).ended := by
      intro t hTt he
      rw [(hf.inv h0 t).ended_iff] at he
      rw [(hf.inv h0 T).ended_iff] at hne
      have hi : i ∈ tasks := by
        by_contra hi
        exact hne (hout T i hi)
      obtain ⟨n, rfl⟩ := Nat.exists_eq_add_of_le hTt
      have := hmin (T + n)
      have h2 : ∑ i ∈ tasks, holdWeight ((x (T + n)).task i) < ∑ i ∈ tasks, holdWeight ((x T).task i) :=
        Finset.sum_lt_sum (fun j _ => hmono T n j) ⟨i, hi, by omega⟩
      omega
    have hrank : ∀ k t, T ≤ t → holdRank (x t) i = k → False := by
      intro k
      induction k using Nat.strong_induction_on with
      | _ k ih =>
        intro t hTt hk
        obtain ⟨t', a, htt', hm, hw, -, htask, hreq⟩ := hf.next_own h0 (hnever t hTt)
        have hTt' := hTt.trans htt'
        have hsame : holdRank (x t') i = holdRank (x t) i := by
          obtain ⟨n, rfl⟩ := Nat.exists_eq_add_of_le htt'
          obtain ⟨h1, h2⟩ := F4 t n hTt
          unfold holdRank
          rw [htask, h1, h2]
          match hwant : ((x t).task i).want with
          | none => rfl
          | some r =>
            have : reqState (x (t + n)).pool r = reqState (x t).pool r := by
              unfold reqState
              rw [hreq r (.inl hwant)]
            dsimp only
            rw [this]
        rcases (hf.inv h0 t').progress (hf.step t' a hm) (hf.keeps t' a hm) with h | h | ⟨-, -, -, h3⟩
        · exact hconst _ hTt' _ h
        · exact F2 _ (by omega) h
        · have := h3 (F3 t' hTt') fun j r k hk => hf.fresh t' j r k (by rw [hm, hk])
          rw [hw, hsame, hk] at this
          exact ih _ this (t' + 1) (by omega) rfl
    exact hrank _ T (Nat.le_refl _) rfl
  refine ⟨T, fun t hTt i => ?_⟩
  rw [(hf.inv h0 t).ended_iff]
  obtain ⟨n, rfl⟩ := Nat.exists_eq_add_of_le hTt
  have := hmono T n i
  have h2 := ((hf.inv h0 T).ended_iff i).1 (hend i)
  omega

end

/-- Several programs like `examples/migrations` on one pool with more than twice as many places (`C113_migrators`) that are
polled again and again: all of them end. -/
theorem C113_migrators_fair (N : Nat) (tasks : Finset Nat) (debug : Bool) (fp : FloatParse) (v : Nat → Version)
    (s : Nat → PoolMig) (hs : ∀ i, (s i).hist = []) (jobs : Nat → List HoldOp)
    (hjobs : ∀ i, jobs i = if i ∈ tasks then
      Spec.holdProgram [] (migrateMain debug fp exampleLists (exampleUp fp) exampleDown (v i) (s i)).2.hist else [])
    (ms : List HoldMove) (x : Nat → PoolHold) (m : Nat → Option HoldMove)
    (h : (PoolHold.started jobs).run N ms = some (x 0)) (hf : FairRun N x m)
    (hb : 2 * tasks.card + Spec.broken (x 0).pool < N) : ∃ T, ∀ t, T ≤ t → ∀ i, ((x t).task i).ended := by
  refine C113_fair N jobs tasks (fun i hi => by rw [hjobs, if_neg hi]) ms x m h hf ?_
  have hle : ∑ i ∈ tasks, (peak 0 (jobs i) - 1) ≤ ∑ _i ∈ tasks, 2 := by
    refine Finset.sum_le_sum fun i hi => ?_
    obtain ⟨-, -, h3⟩ := C100_limit (n := 3) (by decide) (uses_exampleUp fp) uses_exampleDown debug fp exampleLists
      (v i) (s i) (hs i)
    have := peak_holdProgram 3 _ [] h3
    rw [hjobs, if_pos hi]
    rw [List.length_nil] at this
    omega
  rw [Finset.sum_const] at hle
  change _ ≤ tasks.card * 2 at hle
  omega

/-! ### there are such executions -/

/-- these moves are possible one after the other, nobody gives up, and the counter is seen as it is. -/
def freshMoves (N : Nat) : PoolHold → List HoldMove → Bool
  | _, [] => true
  | x, a :: ms =>
    a.keepsOn && (match a with | .poll _ (.load _ k) => k == x.pool.items | _ => true) &&
      match x.step N a with
      | some y => freshMoves N y ms
      | none => false

/-- an execution in which all have ended at some time, and nothing happens afterwards. -/
theorem Spec.FairRun.of_moves {N : Nat} {jobs : Nat → List HoldOp} (ms : List HoldMove) :
    ∀ x0 : PoolHold, HoldInv N jobs x0 → freshMoves N x0 ms = true →
      (∀ z, x0.run N ms = some z → ∀ i, (z.task i).ended) → ∃ x m, FairRun N x m ∧ x 0 = x0 := by
  induction ms with
  | nil =>
    intro x0 _ _ hend
    exact ⟨fun _ => x0, fun _ => none,
      { idle := fun _ _ => rfl
        step := fun _ _ h => by cases h
        keeps := fun _ _ h => by cases h
        fresh := fun _ _ _ _ h => by cases h
        fair := fun _ i h => absurd (hend x0 rfl i) h }, rfl⟩
  | cons a ms ih =>
    intro x0 h0 hms hend
    unfold freshMoves at hms
    rw [Bool.and_eq_true, Bool.and_eq_true] at hms
    obtain ⟨⟨hk, hl⟩, hms⟩ := hms
    split at hms
    next y hy =>
      obtain ⟨x, m, hf, hx0⟩ := ih y (h0.step hy) hms fun z hz => hend z (by
        unfold PoolHold.run
        rw [hy]
        exact hz)
      refine ⟨fun t => match t with | 0 => x0 | t + 1 => x t, fun t => match t with | 0 => some a | t + 1 => m t,
        { idle := ?_, step := ?_, keeps := ?_, fresh := ?_, fair := ?_ }, rfl⟩
      · rintro (_ | t) h
        · cases h
        · exact hf.idle t h
      · rintro (_ | t) b h
        · cases h
          show x0.step N a = some (x 0)
          rw [hx0]
          exact hy
        · exact hf.step t b h
      · rintro (_ | t) b h
        · cases h
          exact hk
        · exact hf.keeps t b h
      · rintro (_ | t) i r k h
        · cases h
          exact eq_of_beq hl
        · exact hf.fresh t i r k h
      · rintro (_ | t) i hi
        · by_cases hw : a.who = i
          · exact ⟨0, Nat.le_refl _, a, rfl, hw⟩
          · obtain ⟨t', -, b, hb, hbw⟩ := hf.fair 0 i (by
              rw [hx0, (h0.others hy hw).1]
              exact hi)
            exact ⟨t' + 1, Nat.zero_le _, b, hb, hbw⟩
        · obtain ⟨t', ht', b, hb, hbw⟩ := hf.fair t i hi
          exact ⟨t' + 1, Nat.succ_le_succ ht', b, hb, hbw⟩
    · cases hms

namespace C113

/-- the two tasks of `C113_Deadlock` on three places; each gets its connections as they come. -/
def fairMoves : List HoldMove :=
  moves ++ [.poll 0 (.load 2 2), .poll 0 (.cas 2), .poll 0 (.created 2), .poll 1 (.load 3 3), .poll 1 (.register 3),
    .poll 1 (.pop 3), .poll 1 (.load 3 3), .next 0, .next 0, .poll 1 (.pop 3), .next 1, .next 1]

example : ∃ x m, FairRun 3 x m ∧ x 0 = PoolHold.started jobs := by
  refine Spec.FairRun.of_moves (jobs := jobs) fairMoves _ (HoldInv.started 3 jobs) (by decide +kernel) fun z hz i => ?_
  by_cases hi : i < 2
  · have h : ((PoolHold.started jobs).run 3 fairMoves).map (fun x => [0, 1].map x.task) =
        some [⟨[], none, []⟩, ⟨[], none, []⟩] := by decide +kernel
    rw [hz] at h
    simp only [Option.map_some, List.map_cons, List.map_nil, Option.some.injEq, List.cons.injEq, and_true] at h
    match i, hi with
    | 0, _ => rw [h.1]; exact ⟨rfl, rfl, rfl⟩
    | 1, _ => rw [h.2]; exact ⟨rfl, rfl, rfl⟩
  · rw [((HoldInv.started 3 jobs).run hz).outside i (if_neg hi)]
    exact ⟨rfl, rfl, rfl⟩

/-- three places are enough for the theorem, two are not. -/
example : ∑ i ∈ Finset.range 2, (peak 0 (jobs i) - 1) + Spec.broken (PoolHold.started jobs).pool = 2 := by decide +kernel

end C113

end Verif

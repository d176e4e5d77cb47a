import Verif.Props.C113_Fair
import Verif.Props.C112_PoolFinish
import Verif.Spec.StoreFair

/-!
# C112 — tasks that are polled again and again store everything
-/

namespace Verif

open Spec (SqlServer PoolTasks PoolMove StorePool StoreJob StoreTask Tables FairTasks HoldMove Insertable HasField)
open Spec.PoolTasks (isPoll reqState)

/-- how far a task is from its next connection. -/
def taskRank (x : PoolTasks) (i : Nat) : Nat :=
  match x.req i with
  | none => 3
  | some r =>
    match reqState x.pool r with
    | some st => reqRank x.pool.queue.isEmpty x.pool.items st
    | none => 0

/-- a connection is being opened. -/
def OpeningOne (p : Pool) : Prop := ∃ (r : Nat) (w : Bool), p.reqs[r]? = some { st := .creating, awake := w }

section

variable {N : Nat} {S : SqlServer} {rows : Tables} {jobs : Nat → List StoreJob} {x y : PoolTasks} {a : PoolMove}

theorem keepsOn_hold {i : Nat} {e : PoolEv} (h : (PoolMove.poll i e).keepsOn = true) (j : Nat) :
    (HoldMove.poll j e).keepsOn = true := by
  cases e <;> first | rfl | cases h

theorem tasks_broken (hs : x.step N S a = some y) (hk : a.keepsOn = true) : Spec.broken y.pool = Spec.broken x.pool := by
  unfold PoolTasks.step at hs
  cases a with
  | ask i =>
    dsimp only at hs
    split at hs
    · obtain ⟨p, hp, rfl⟩ := Option.map_eq_some_iff.1 hs
      exact poll_broken hp fun _ => rfl
    · cases hs
  | poll i e =>
    dsimp only at hs
    split at hs
    next r hr =>
      split at hs
      · obtain ⟨p, hp, rfl⟩ := Option.map_eq_some_iff.1 hs
        have : ∀ z : PoolTasks, (z.polled S i r).pool = z.pool := by
          intro z
          unfold PoolTasks.polled
          split <;> rfl
        rw [this]
        exact poll_broken hp (keepsOn_hold hk)
      · cases hs
    · cases hs
  | next i =>
    dsimp only at hs
    split at hs
    · split at hs
      · obtain ⟨p, hp, rfl⟩ := Option.map_eq_some_iff.1 hs
        exact poll_broken (N := N) hp fun _ => rfl
      · cases hs
        rfl
    · cases hs

/-- the move of a task changes no request of another. -/
theorem PoolTogether.others (h : PoolTogether N S rows jobs x) (hs : x.step N S a = some y) {j : Nat} (hj : a.who ≠ j) :
    y.req j = x.req j ∧ ∀ r, x.req j = some r → y.pool.reqs[r]? = x.pool.reqs[r]? := by
  have hset : ∀ (z : PoolTasks) (i : Nat) (v : Option Nat), i ≠ j → (z.setReq i v).req j = z.req j :=
    fun z i v hi => if_neg fun e => hi e.symm
  have apart : ∀ (i r r' : Nat), i ≠ j → x.req i = some r → x.req j = some r' → r' ≠ r := by
    rintro i r _ hi hr hr' rfl
    exact hi (h.alone _ _ _ hr hr')
  unfold PoolTasks.step at hs
  cases a with
  | ask i =>
    dsimp only at hs
    split at hs
    · obtain ⟨p, hp, rfl⟩ := Option.map_eq_some_iff.1 hs
      refine ⟨hset _ _ _ hj, fun r hr => ?_⟩
      unfold Pool.step at hp
      injection hp with hp
      subst hp
      obtain ⟨q, hq, -⟩ := h.mine j r hr
      exact List.getElem?_append_left (List.getElem?_eq_some_iff.1 hq).1
    · cases hs
  | poll i e =>
    dsimp only at hs
    split at hs
    next r hr =>
      split at hs
      next he =>
        obtain ⟨rfl, he⟩ := he
        obtain ⟨p, hp, rfl⟩ := Option.map_eq_some_iff.1 hs
        have h1 : ∀ z : PoolTasks, (z.polled S i e.req).pool = z.pool ∧ (z.polled S i e.req).req j = z.req j := by
          intro z
          unfold PoolTasks.polled
          split <;> first | exact ⟨rfl, rfl⟩ | exact ⟨rfl, hset _ _ _ hj⟩
        rw [(h1 _).1, (h1 _).2]
        refine ⟨rfl, fun r hr' => ?_⟩
        obtain ⟨q, q', hq, hse, -⟩ := step_poll he hp
        show p.reqs[r]? = _
        rw [hse, List.getElem?_set_ne (fun e' => apart i _ r hj hr hr' e'.symm)]
      · cases hs
    · cases hs
  | next i =>
    dsimp only at hs
    split at hs
    next ids k jb sc rest r ht hr =>
      split at hs
      · obtain ⟨p, hp, rfl⟩ := Option.map_eq_some_iff.1 hs
        refine ⟨hset _ _ _ hj, fun r' hr' => ?_⟩
        obtain ⟨q, q', k', hq, -, hse, -⟩ := step_put hp
        show p.reqs[r']? = _
        rw [hse, List.getElem?_set_ne (fun e' => apart i _ r' hj hr hr' e'.symm)]
      · cases hs
        exact ⟨rfl, fun _ _ => rfl⟩
    · cases hs

/-- a move that does not fail makes a turn of the store, or begins to open a connection, or brings its task nearer to one. -/
theorem PoolTogether.progress (h : PoolTogether N S rows jobs x) (hs : x.step N S a = some y) (hk : a.keepsOn = true) :
    (y.store ≠ x.store ∧ ∃ i k, y.store = x.store.turn S (i, k)) ∨ y.store = x.store ∧ (OpeningOne y.pool ∨
      (y.pool.items = x.pool.items ∧ y.pool.queue = x.pool.queue ∧
        ((x.pool.queue = [] → x.pool.items < N) → (∀ i r k, a = .poll i (.load r k) → k = x.pool.items) →
          taskRank y a.who < taskRank x a.who))) := by
  have hset : ∀ (z : PoolTasks) (i : Nat) (v : Option Nat), (z.setReq i v).req i = v := fun z i v => if_pos rfl
  cases a with
  | next i =>
    left
    unfold PoolTasks.step at hs
    dsimp only at hs
    split at hs
    next ids k jb sc rest r ht hr =>
      split at hs
      · obtain ⟨p, hp, rfl⟩ := Option.map_eq_some_iff.1 hs
        exact ⟨turn_works (k := k) ht, i, k, rfl⟩
      · cases hs
        exact ⟨turn_works (k := k) ht, i, k, rfl⟩
    · cases hs
  | ask i =>
    right
    unfold PoolTasks.step at hs
    dsimp only at hs
    split at hs
    next ids j rest ht hr =>
      obtain ⟨p, hp, rfl⟩ := Option.map_eq_some_iff.1 hs
      unfold Pool.step at hp
      injection hp with hp
      subst hp
      refine ⟨rfl, .inr ⟨rfl, rfl, fun _ _ => ?_⟩⟩
      show taskRank _ i < taskRank x i
      unfold taskRank
      rw [hset, hr]
      dsimp only
      have : reqState (PoolTasks.setReq { x with pool :=
          { x.pool with reqs := x.pool.reqs ++ [{ st := .waiting false, awake := true }] } } i
          (some x.pool.reqs.length)).pool x.pool.reqs.length = some (.waiting false) := by
        unfold reqState
        show Option.map _ ((x.pool.reqs ++ _)[_]?) = _
        rw [last_get]
        rfl
      rw [this]
      dsimp only
      show (if _ then 2 else 0) < 3
      split <;> omega
    · cases hs
  | poll i e =>
    unfold PoolTasks.step at hs
    dsimp only at hs
    split at hs
    next r hw =>
      split at hs
      next he =>
        obtain ⟨hr, he⟩ := he
        obtain ⟨p, hp, rfl⟩ := Option.map_eq_some_iff.1 hs
        obtain ⟨q, hq, hm⟩ := h.mine i r hw
        have same : ∀ st, reqState p r = some st → st.over = false → (∀ k, st ≠ .holding k) →
            PoolTasks.polled S { x with pool := p } i r = { x with pool := p } := by
          intro st hst ho hn
          unfold PoolTasks.polled
          dsimp only
          rw [hst]
          cases st with
          | holding k => exact absurd rfl (hn k)
          | failed => cases ho
          | dropped => cases ho
          | gone => cases ho
          | _ => rfl
        rcases poll_progress he hr hq (keepsOn_hold hk) hp with ⟨k, hst⟩ | ⟨w, hc⟩ | ⟨h1, h2, st, hst, ho, hn, hrank⟩
        · left
          subst hr
          have hpol : PoolTasks.polled S { x with pool := p } i e.req =
              { x with pool := p, store := x.store.turn S (i, k) } := by
            unfold PoolTasks.polled
            dsimp only
            rw [hst]
          rw [hpol]
          have hnew : ∃ w, p.reqs[e.req]? = some { st := .holding k, awake := w } := by
            unfold reqState at hst
            obtain ⟨⟨st, w⟩, hq', hst'⟩ := Option.map_eq_some_iff.1 hst
            exact ⟨w, by rw [hq']; exact congrArg some (by cases hst'; rfl)⟩
          obtain ⟨w, hnew⟩ := hnew
          have hfree := h.free he hp hnew
          obtain ⟨q3, _, hq3, -, -, hnh, hn1, hn2, hn3⟩ := step_poll he hp
          rw [hq] at hq3
          injection hq3 with hq3
          subst hq3
          have htask : ∃ ids j rest, x.store.task i = .ok ⟨ids, none, j :: rest⟩ := by
            revert hnh hn1 hn2 hn3 hm
            cases q.st with
            | holding k => intro _ hnh; exact absurd rfl (hnh k)
            | failed => intro hm; exact hm.elim
            | dropped => intro hm; exact hm.elim
            | gone => intro hm; exact hm.elim
            | _ => intro hm _ _ _ _; exact hm
          obtain ⟨ids, j, rest, ht⟩ := htask
          exact ⟨turn_takes ht hfree, i, k, rfl⟩
        · right
          rw [same .creating (by unfold reqState; rw [hc]; rfl) rfl (by simp)]
          exact ⟨rfl, .inl ⟨r, w, hc⟩⟩
        · right
          rw [same st hst ho hn]
          refine ⟨rfl, .inr ⟨h1, h2, fun hroom hf => ?_⟩⟩
          have hlt := hrank hroom fun k hek => hf i r k (by rw [hek])
          show taskRank _ i < taskRank x i
          unfold taskRank
          dsimp only
          rw [hw]
          dsimp only
          have hs2 : reqState x.pool r = some q.st := by unfold reqState; rw [hq]; rfl
          rw [hst, hs2]
          dsimp only
          rw [h1, h2]
          exact hlt
      · cases hs
    · cases hs

end

section

variable {N : Nat} {S : SqlServer} {rows : Tables} {jobs : Nat → List StoreJob} {x : Nat → PoolTasks}
  {m : Nat → Option PoolMove}

theorem Spec.FairTasks.inv (hf : FairTasks N S x m) (h0 : PoolTogether N S rows jobs (x 0)) (t : Nat) :
    PoolTogether N S rows jobs (x t) := by
  induction t with
  | zero => exact h0
  | succ t ih =>
    match hm : m t with
    | none => rw [hf.idle t hm]; exact ih
    | some a => exact ih.step (hf.step t a hm)

theorem Spec.FairTasks.broken (hf : FairTasks N S x m) (t : Nat) : Spec.broken (x t).pool = Spec.broken (x 0).pool := by
  induction t with
  | zero => rfl
  | succ t ih =>
    match hm : m t with
    | none => rw [hf.idle t hm]; exact ih
    | some a => exact (tasks_broken (hf.step t a hm) (hf.keeps t a hm)).trans ih

/-- the next move of a task that has not ended; until then its request stays as it is. -/
theorem Spec.FairTasks.next_own (hf : FairTasks N S x m) (h0 : PoolTogether N S rows jobs (x 0)) {t i : Nat}
    (hi : (x t).store.outcome i = none) :
    ∃ t' a, t ≤ t' ∧ m t' = some a ∧ a.who = i ∧ (x t').req i = (x t).req i ∧
      ∀ r, (x t).req i = some r → (x t').pool.reqs[r]? = (x t).pool.reqs[r]? := by
  classical
  obtain ⟨t1, ht1, a1, ha1, hw1⟩ := hf.fair t i hi
  have hex : ∃ n, ∃ a, m (t + n) = some a ∧ a.who = i := ⟨t1 - t, a1, by rw [Nat.add_sub_cancel' ht1]; exact ha1, hw1⟩
  obtain ⟨a, ha, hw⟩ := Nat.find_spec hex
  have hmin := fun n (hn : n < Nat.find hex) => Nat.find_min hex hn
  generalize Nat.find hex = n at ha hmin
  refine ⟨t + n, a, by omega, ha, hw, ?_⟩
  clear ha hw
  induction n with
  | zero => exact ⟨rfl, fun _ _ => rfl⟩
  | succ n ih =>
    obtain ⟨h1, h2⟩ := ih fun k hk => hmin k (by omega)
    match hm : m (t + n) with
    | none =>
      rw [← Nat.add_assoc, hf.idle _ hm]
      exact ⟨h1, h2⟩
    | some b =>
      obtain ⟨h3, h4⟩ := (hf.inv h0 (t + n)).others (hf.step _ b hm) fun hb => hmin n (by omega) ⟨b, hm, hb⟩
      rw [← Nat.add_assoc]
      exact ⟨h3.trans h1, fun r hr => (h4 r (by rw [h1]; exact hr)).trans (h2 r hr)⟩

/-- what is left to all tasks. -/
def AllWithin (tasks : Finset Nat) (x : StorePool) (n : Nat) : Prop :=
  ∃ w : Nat → Nat, (∀ i, LeftWithin (w i) (x.task i)) ∧ (∀ i, i ∉ tasks → x.task i = .ok ⟨[], none, []⟩) ∧
    ∑ i ∈ tasks, w i = n

theorem AllWithin.turn {tasks : Finset Nat} {x : StorePool} {n : Nat} (h : AllWithin tasks x n) {i k : Nat}
    (hne : x.turn S (i, k) ≠ x) : ∃ n', n' < n ∧ AllWithin tasks (x.turn S (i, k)) n' := by
  obtain ⟨w, h1, h2, h3⟩ := h
  obtain ⟨⟨m', hm, hw⟩, ho⟩ := turn_less S x i k (w i) (h1 i) hne
  have hit : i ∈ tasks := by
    by_contra hit
    refine hne (turn_idle S x i k ?_)
    unfold StorePool.outcome
    rw [h2 i hit]
    rfl
  refine ⟨∑ n ∈ tasks, (if n = i then m' else w n), ?_, fun n => if n = i then m' else w n, fun n => ?_, fun n hn => ?_, rfl⟩
  · rw [← h3]
    refine Finset.sum_lt_sum (fun n _ => ?_) ⟨i, hit, ?_⟩
    · split
      next h => subst h; omega
      · exact Nat.le_refl _
    · rw [if_pos rfl]
      exact hm
  · dsimp only
    by_cases hni : n = i
    · subst hni
      rw [if_pos rfl]
      exact hw
    · rw [if_neg hni, ho n hni]
      exact h1 n
  · have hni : n ≠ i := fun h => hn (h ▸ hit)
    rw [ho n hni]
    exact h2 n hn

theorem AllWithin.go (S : SqlServer) (rows : Tables) (jobs : Nat → List StoreJob) (tasks : Finset Nat)
    (ht : ∀ i, i ∉ tasks → jobs i = []) (sched : List (Nat × Nat)) :
    ∃ n, AllWithin tasks ((StorePool.started rows jobs).go S sched) n := by
  induction sched using List.reverseRecOn with
  | nil =>
    refine ⟨_, fun i => Spec.jobsModels (jobs i) + 2 * (jobs i).length, fun i => Nat.le_refl _, fun i hi => ?_, rfl⟩
    show Except.ok _ = _
    rw [ht i hi]
  | append_singleton sched t ih =>
    obtain ⟨n, h⟩ := ih
    rw [← store_go_turn rfl]
    by_cases hne : ((StorePool.started rows jobs).go S sched).turn S t = (StorePool.started rows jobs).go S sched
    · rw [hne]
      exact ⟨n, h⟩
    · obtain ⟨i, k⟩ := t
      obtain ⟨n', -, h'⟩ := h.turn hne
      exact ⟨n', h'⟩

/-- **C112.** Tasks that store models on the connections of a pool with a place that is not lost: in every execution from any
state they have got into, in which every task that has not ended is polled again and again, woken or not, and from now on
every connection can be opened and nobody gives up waiting, all of them end — with their ids, or with an error of the
server. -/
theorem C112_fair_partial (N : Nat) (S : SqlServer) (jobs : Nat → List StoreJob) (tasks : Finset Nat)
    (ht : ∀ i, i ∉ tasks → jobs i = []) (rows : Tables) (ms : List PoolMove) (x : Nat → PoolTasks)
    (m : Nat → Option PoolMove) (h : (PoolTasks.started rows jobs).run N S ms = some (x 0)) (hf : FairTasks N S x m)
    (hb : Spec.broken (x 0).pool < N) :
    ∃ T, ∀ t, T ≤ t → (x t).store = (x T).store ∧ ∀ i, ((x t).store.outcome i).isSome = true := by
  classical
  have h0 : PoolTogether N S rows jobs (x 0) := (PoolTogether.started N S rows jobs).run h
  clear h
  -- the time when there is least left to do
  have hex : ∃ n t, AllWithin tasks (x t).store n := by
    obtain ⟨sched, hsc, -⟩ := h0.store
    obtain ⟨n, hn⟩ := AllWithin.go S rows jobs tasks ht sched
    exact ⟨n, 0, hsc ▸ hn⟩
  obtain ⟨T, hT⟩ := Nat.find_spec hex
  have hmin : ∀ t n, AllWithin tasks (x t).store n → Nat.find hex ≤ n := fun t n hn => Nat.find_min' hex ⟨t, hn⟩
  generalize Nat.find hex = n0 at hT hmin
  -- from then on the store stays
  have hconst : ∀ n, (x (T + n)).store = (x T).store := by
    intro n
    induction n with
    | zero => rfl
    | succ n ih =>
      rw [← Nat.add_assoc]
      match hm : m (T + n) with
      | none => rw [hf.idle _ hm]; exact ih
      | some a =>
        rcases (hf.inv h0 (T + n)).progress (hf.step _ a hm) (hf.keeps _ a hm) with ⟨hne, i, k, he⟩ | ⟨he, -⟩
        · exfalso
          rw [he] at hne
          rw [ih] at hne he
          obtain ⟨n', hn', hw⟩ := hT.turn hne
          rw [← he] at hw
          have := hmin _ n' hw
          omega
        · exact he.trans ih
  have hstore : ∀ t, T ≤ t → (x t).store = (x T).store := by
    intro t hTt
    obtain ⟨n, rfl⟩ := Nat.exists_eq_add_of_le hTt
    exact hconst n
  have hmove : ∀ t a, T ≤ t → m t = some a → OpeningOne (x (t + 1)).pool ∨
      ((x (t + 1)).pool.items = (x t).pool.items ∧ (x (t + 1)).pool.queue = (x t).pool.queue ∧
        (((x t).pool.queue = [] → (x t).pool.items < N) → taskRank (x (t + 1)) a.who < taskRank (x t) a.who)) := by
    intro t a hTt hm
    rcases (hf.inv h0 t).progress (hf.step t a hm) (hf.keeps t a hm) with ⟨hne, -⟩ | ⟨-, h1 | ⟨h1, h2, h3⟩⟩
    · exact absurd ((hstore (t + 1) (by omega)).trans (hstore t hTt).symm) hne
    · exact .inl h1
    · exact .inr ⟨h1, h2, fun hroom => h3 hroom fun i r k hk => hf.fresh t i r k (by rw [hm, hk])⟩
  -- nobody drops a connection
  have hnext : ∀ t i, T ≤ t → m t ≠ some (.next i) := by
    intro t i hTt hm
    have hs := hf.step t _ hm
    have he := (hstore (t + 1) (by omega)).trans (hstore t hTt).symm
    unfold PoolTasks.step at hs
    dsimp only at hs
    split at hs
    next ids k jb sc rest r hta hr =>
      refine turn_works (S := S) (k := k) hta ?_
      split at hs
      · obtain ⟨p, hp, hy⟩ := Option.map_eq_some_iff.1 hs
        rw [← hy] at he
        exact he
      · injection hs with hy
        rw [← hy] at he
        exact he
    · cases hs
  -- nobody has a connection
  have F1 : ∀ t, T ≤ t → ∀ i ids k j p rest, (x t).store.task i ≠ .ok ⟨ids, some (k, j, p), rest⟩ := by
    intro t hTt i ids k j p rest hta
    have hne : (x t).store.outcome i = none := by
      unfold StorePool.outcome
      rw [hta]
    obtain ⟨t', a, htt', hm, hw, -, -⟩ := hf.next_own h0 hne
    have hTt' := hTt.trans htt'
    have hta' : (x t').store.task i = .ok ⟨ids, some (k, j, p), rest⟩ := by
      rw [hstore t' hTt', ← hstore t hTt]
      exact hta
    have hi := hf.inv h0 t'
    have hs := hf.step t' a hm
    cases a with
    | next j => exact hnext t' j hTt' hm
    | ask j' =>
      have : j' = i := hw
      subst this
      unfold PoolTasks.step at hs
      dsimp only at hs
      rw [hta'] at hs
      cases hs
    | poll j' e =>
      have : j' = i := hw
      subst this
      unfold PoolTasks.step at hs
      dsimp only at hs
      split at hs
      next r hr =>
        split at hs
        next he =>
          obtain ⟨rfl, he⟩ := he
          obtain ⟨p', hp, -⟩ := Option.map_eq_some_iff.1 hs
          obtain ⟨q, hq, hfit⟩ := hi.mine j' _ hr
          obtain ⟨q3, _, hq3, -, -, hnh, hn1, hn2, hn3⟩ := step_poll he hp
          rw [hq] at hq3
          injection hq3 with hq3
          subst hq3
          have htask : ∃ ids j rest, (x t').store.task j' = .ok ⟨ids, none, j :: rest⟩ := by
            revert hnh hn1 hn2 hn3 hfit
            cases q.st with
            | holding k => intro _ hnh; exact absurd rfl (hnh k)
            | failed => intro hm; exact hm.elim
            | dropped => intro hm; exact hm.elim
            | gone => intro hm; exact hm.elim
            | _ => intro hm _ _ _ _; exact hm
          obtain ⟨ids2, j2, rest2, ht2⟩ := htask
          rw [hta'] at ht2
          cases ht2
        · cases hs
      · cases hs
  -- no connection is being opened
  have F2 : ∀ t, T ≤ t → ¬OpeningOne (x t).pool := by
    rintro t hTt ⟨r, w, hq⟩
    have hi := hf.inv h0 t
    obtain ⟨i, hown⟩ := hi.owned r _ hq rfl
    obtain ⟨q, hq2, hfit⟩ := hi.mine i r hown
    rw [hq] at hq2
    injection hq2 with hq2
    subst hq2
    obtain ⟨ids, j, rest, hta⟩ := hfit
    have hne : (x t).store.outcome i = none := by
      unfold StorePool.outcome
      rw [hta]
    obtain ⟨t', a, htt', hm, hw, hreq, hst⟩ := hf.next_own h0 hne
    have hTt' := hTt.trans htt'
    have hs := hf.step t' a hm
    have hq' := (hst r hown).trans hq
    rw [hown] at hreq
    cases a with
    | next j => exact hnext t' j hTt' hm
    | ask j' =>
      have : j' = i := hw
      subst this
      unfold PoolTasks.step at hs
      dsimp only at hs
      rw [hreq] at hs
      split at hs
      next h1 h2 => cases h2
      · cases hs
    | poll j' e =>
      have : j' = i := hw
      subst this
      have hk := hf.keeps t' _ hm
      have he' := (hstore (t' + 1) (by omega)).trans (hstore t' hTt').symm
      have hi' := hf.inv h0 t'
      have hi1 := hf.inv h0 (t' + 1)
      unfold PoolTasks.step at hs
      dsimp only at hs
      rw [hreq] at hs
      dsimp only at hs
      split at hs
      next he =>
        obtain ⟨rfl, he⟩ := he
        obtain ⟨p', hp, hy⟩ := Option.map_eq_some_iff.1 hs
        have hhold : ∃ k, reqState p' e.req = some (.holding k) := by
          rcases Pool.step_cases hp with rfl | ⟨q, hr, hsr⟩
          · cases he
          · rw [hq'] at hr
            injection hr with hr
            subst hr
            cases e with
            | created r =>
              simp only [Pool.stepReq, Option.some.injEq] at hsr
              subst hsr
              refine ⟨(x t').pool.born, ?_⟩
              have hlen : r < (x t').pool.reqs.length := (List.getElem?_eq_some_iff.1 hq').1
              show Option.map _ (((x t').pool.reqs.set r _)[r]?) = _
              rw [List.getElem?_set_self hlen]
              rfl
            | createErr r => cases hk
            | cancel r => cases hk
            | _ => simp [Pool.stepReq] at hsr
        obtain ⟨k, hst⟩ := hhold
        have hpool : (x (t' + 1)).pool = p' ∧ (x (t' + 1)).req j' = some e.req := by
          rw [← hy]
          unfold PoolTasks.polled
          dsimp only
          rw [hst]
          exact ⟨rfl, hreq⟩
        obtain ⟨q, hq2, hfit⟩ := hi1.mine j' _ hpool.2
        rw [hpool.1] at hq2
        unfold reqState at hst
        rw [hq2] at hst
        injection hst with hst
        change q.st = _ at hst
        rw [hst] at hfit
        obtain ⟨ids2, j2, p2, rest2, ht2⟩ := hfit
        exact F1 (t' + 1) (by omega) _ _ _ _ _ _ ht2
      · cases hs
  -- there is room
  have F3 : ∀ t, T ≤ t → (x t).pool.queue = [] → (x t).pool.items < N := by
    intro t hTt hqu
    have hi := hf.inv h0 t
    obtain ⟨es, hes⟩ := hi.pool
    have hc := ((PoolInv.new N).run hes).count
    have h1 : Spec.inUse (x t).pool = [] := by
      unfold Spec.inUse
      rw [List.filterMap_eq_nil_iff]
      rintro ⟨st, w⟩ hq
      obtain ⟨r, hr⟩ := List.getElem?_of_mem hq
      cases st with
      | holding k =>
        obtain ⟨i', hi'⟩ := hi.owned r _ hr rfl
        obtain ⟨q, hq', hm⟩ := hi.mine i' r hi'
        rw [hr] at hq'
        injection hq' with hq'
        subst hq'
        obtain ⟨ids, j, p, rest, hta⟩ := hm
        exact absurd hta (F1 t hTt _ _ _ _ _ _)
      | _ => rfl
    have h2 : Spec.creating (x t).pool = 0 := by
      unfold Spec.creating
      rw [List.countP_eq_zero]
      rintro ⟨st, w⟩ hq
      obtain ⟨r, hr⟩ := List.getElem?_of_mem hq
      cases st with
      | creating => exact absurd ⟨r, w, hr⟩ (F2 t hTt)
      | _ => simp [Spec.isCreating]
    rw [h1, h2, hqu] at hc
    have := hf.broken t
    simp at hc
    omega
  -- queue and counter stay
  have F4 : ∀ t n, T ≤ t → (x (t + n)).pool.items = (x t).pool.items ∧ (x (t + n)).pool.queue = (x t).pool.queue := by
    intro t n hTt
    induction n with
    | zero => exact ⟨rfl, rfl⟩
    | succ n ih =>
      rw [← Nat.add_assoc]
      match hm : m (t + n) with
      | none => rw [hf.idle _ hm]; exact ih
      | some a =>
        rcases hmove (t + n) a (by omega) hm with h | ⟨h1, h2, -⟩
        · exact absurd h (F2 _ (by omega))
        · exact ⟨h1.trans ih.1, h2.trans ih.2⟩
  refine ⟨T, fun t hTt => ⟨hstore t hTt, fun i => ?_⟩⟩
  rw [hstore t hTt]
  by_contra hne
  have hnone : (x T).store.outcome i = none := by simpa using hne
  have hrank : ∀ k t, T ≤ t → taskRank (x t) i = k → False := by
    intro k
    induction k using Nat.strong_induction_on with
    | _ k ih =>
      intro t hTt hk
      obtain ⟨t', a, htt', hm, hw, hreq, hst⟩ := hf.next_own h0 (t := t) (i := i) (by rw [hstore t hTt]; exact hnone)
      have hTt' := hTt.trans htt'
      have hsame : taskRank (x t') i = taskRank (x t) i := by
        obtain ⟨n, rfl⟩ := Nat.exists_eq_add_of_le htt'
        obtain ⟨h1, h2⟩ := F4 t n hTt
        unfold taskRank
        rw [hreq, h1, h2]
        match hwant : (x t).req i with
        | none => rfl
        | some r =>
          have : reqState (x (t + n)).pool r = reqState (x t).pool r := by
            unfold reqState
            rw [hst r hwant]
          dsimp only
          rw [this]
      rcases hmove t' a hTt' hm with h | ⟨-, -, h3⟩
      · exact F2 _ (by omega) h
      · have := h3 (F3 t' hTt')
        rw [hw, hsame, hk] at this
        exact ih _ this (t' + 1) (by omega) rfl
  exact hrank _ T (Nat.le_refl _) rfl

end

/-! ### what has been stored is found -/

/-- **C112**, the tables: tasks that insert models of one type and have ended without error have added a row for each of
them, and each is what was given (`Kept`), whatever the others did and wherever they are. -/
theorem C112_kept (N : Nat) (S : SqlServer) (jobs : Nat → List StoreJob) (hj : ∀ i, ∀ j ∈ jobs i, j.Fits)
    (hins : ∀ i, ∀ j ∈ jobs i, ∃ m, j = .insert m) (rows : Tables) (ms : List PoolMove) (x : PoolTasks)
    (h : (PoolTasks.started rows jobs).run N S ms = some x) (m : ModelDef) (hs : Spec.ModelDef.Sound m)
    (hkd : (S.database x.store.rows).Keyed m) (progs : List Nat) (hp : progs.Nodup) (mvs : Nat → List ModelVal)
    (ids : Nat → List UInt64)
    (hm : ∀ i ∈ progs, jobs i = insertsOf (mvs i) ∧ (∀ mv ∈ mvs i, Insertable S m mv) ∧
      x.store.outcome i = some (.ok (ids i))) :
    ∃ added news, x.store.rows m.table = rows m.table ++ added ∧ news.Subperm added ∧
      List.Forall₂ (Kept S x.store.rows m) (progs.flatMap fun i => (mvs i).zip (ids i)) news := by
  obtain ⟨sched, hsc, -⟩ := C112_store N S rows jobs ms x h
  exact C110_kept S jobs hj hins rows sched x.store hsc m hs hkd progs hp mvs ids hm

/-- **C112**, querying: a query of the type on any connection at rest finds each of these models once, as it was given. -/
theorem C112_found {X : Type} (N : Nat) (S : SqlServer) (jobs : Nat → List StoreJob) (hj : ∀ i, ∀ j ∈ jobs i, j.Fits)
    (hins : ∀ i, ∀ j ∈ jobs i, ∃ m, j = .insert m) (rows0 : Tables) (ms : List PoolMove) (x : PoolTasks)
    (h : (PoolTasks.started rows0 jobs).run N S ms = some x) (m : ModelDef) (hs : Spec.ModelDef.Sound m)
    (hkd : (S.database x.store.rows).Keyed m) (progs : List Nat) (hp : progs.Nodup) (mvs : Nat → List ModelVal)
    (ids : Nat → List UInt64)
    (hm : ∀ i ∈ progs, jobs i = insertsOf (mvs i) ∧ (∀ mv ∈ mvs i, Insertable S m mv) ∧
      x.store.outcome i = some (.ok (ids i)))
    (fp : FloatParse) (conv : List Str × Str → Value → Out ParseError X) (c : Conn)
    (ts : List Spec.Tok) (q : Spec.Select) (descs : List Spec.ColDesc) (cols : List Column)
    (rows : List (List Spec.Datum)) (ps : List Bytes) (status warnings : Nat) (r : List Rx)
    (ht : Spec.tokens (buildQuery m) = some ts) (hq : Spec.parseSelect ts = some q)
    (hdc : DescsAs descs cols) (hl : descs.length < 2 ^ 56)
    (hds : descs.map (fun d => (d.table, d.orgName)) = q.items)
    (hperm : rows.Perm ((S.database x.store.rows).select q)) (htr : TextRows fp cols rows ps)
    (hconv : ∀ r ∈ x.store.rows m.table, ∀ p c v r', HasField m p c →
      (S.database x.store.rows).follow m r p = some r' → Spec.meaning v = r' c → ∃ y, conv (p, c) v = .ok y)
    (hc : AtRest S c (rxOf (Spec.framesAll (UInt8.ofNat (Spec.frameCount (0x03 :: utf8 (buildQuery m))))
      (Spec.resultSet descs ps status warnings)) ++ r)) :
    ∃ c1 c2 ok objs, query (buildQuery m) c = (.ok { columns := cols, okPacket := none }, c1) ∧
      RSet.collect (textReader fp (buildModel conv m)) { columns := cols, okPacket := none } c1
        = (.ok ({ columns := cols, okPacket := some ok }, objs), c2) ∧
      ∃ found, found.Subperm objs ∧
        List.Forall₂ (IsModel S conv m) (progs.flatMap fun i => (mvs i).zip (ids i)) found := by
  obtain ⟨sched, hsc, -⟩ := C112_store N S rows0 jobs ms x h
  exact C110_found S jobs hj hins rows0 sched x.store hsc m hs hkd progs hp mvs ids hm fp conv c ts q descs cols rows ps
    status warnings r ht hq hdc hl hds hperm htr hconv hc

/-! ### there are such executions -/

/-- these moves are possible one after the other, nobody gives up, and the counter is seen as it is. -/
def freshTaskMoves (N : Nat) (S : SqlServer) : PoolTasks → List PoolMove → Bool
  | _, [] => true
  | x, a :: ms =>
    a.keepsOn && (match a with | .poll _ (.load _ k) => k == x.pool.items | _ => true) &&
      match x.step N S a with
      | some y => freshTaskMoves N S y ms
      | none => false

/-- a move changes what another task does not. -/
theorem task_of_other {N : Nat} {S : SqlServer} {x y : PoolTasks} {a : PoolMove} (hs : x.step N S a = some y) {j : Nat}
    (hj : a.who ≠ j) : y.store.task j = x.store.task j := by
  unfold PoolTasks.step at hs
  cases a with
  | ask i =>
    dsimp only at hs
    split at hs
    · obtain ⟨p, hp, rfl⟩ := Option.map_eq_some_iff.1 hs
      rfl
    · cases hs
  | poll i e =>
    dsimp only at hs
    split at hs
    next r hr =>
      split at hs
      · obtain ⟨p, hp, rfl⟩ := Option.map_eq_some_iff.1 hs
        unfold PoolTasks.polled
        split <;> first | rfl | exact turn_other S _ _ _ _ fun e => hj e.symm
      · cases hs
    · cases hs
  | next i =>
    dsimp only at hs
    split at hs
    · split at hs
      · obtain ⟨p, hp, rfl⟩ := Option.map_eq_some_iff.1 hs
        exact turn_other S _ _ _ _ fun e => hj e.symm
      · cases hs
        exact turn_other S _ _ _ _ fun e => hj e.symm
    · cases hs

/-- an execution in which all have ended at some time, and nothing happens afterwards. -/
theorem Spec.FairTasks.of_moves {N : Nat} {S : SqlServer} (ms : List PoolMove) :
    ∀ x0 : PoolTasks, freshTaskMoves N S x0 ms = true →
      (∀ z, x0.run N S ms = some z → ∀ i, (z.store.outcome i).isSome = true) → ∃ x m, FairTasks N S x m ∧ x 0 = x0 := by
  induction ms with
  | nil =>
    intro x0 _ hend
    exact ⟨fun _ => x0, fun _ => none,
      { idle := fun _ _ => rfl
        step := fun _ _ h => by cases h
        keeps := fun _ _ h => by cases h
        fresh := fun _ _ _ _ h => by cases h
        fair := fun _ i h => by
          have := hend x0 rfl i
          rw [h] at this
          cases this }, rfl⟩
  | cons a ms ih =>
    intro x0 hms hend
    unfold freshTaskMoves at hms
    rw [Bool.and_eq_true, Bool.and_eq_true] at hms
    obtain ⟨⟨hk, hl⟩, hms⟩ := hms
    split at hms
    next y hy =>
      obtain ⟨x, m, hf, hx0⟩ := ih y hms fun z hz => hend z (PoolTasks.run_cons hy hz)
      refine ⟨fun t => match t with | 0 => x0 | t + 1 => x t, fun t => match t with | 0 => some a | t + 1 => m t,
        { idle := ?_, step := ?_, keeps := ?_, fresh := ?_, fair := ?_ }, rfl⟩
      · rintro (_ | t) h
        · cases h
        · exact hf.idle t h
      · rintro (_ | t) b h
        · cases h
          show x0.step N S a = some (x 0)
          rw [hx0]
          exact hy
        · exact hf.step t b h
      · rintro (_ | t) b h
        · cases h
          exact hk
        · exact hf.keeps t b h
      · rintro (_ | t) i r k h
        · cases h
          exact eq_of_beq hl
        · exact hf.fresh t i r k h
      · rintro (_ | t) i hi
        · by_cases hw : a.who = i
          · exact ⟨0, Nat.le_refl _, a, rfl, hw⟩
          · obtain ⟨t', -, b, hb, hbw⟩ := hf.fair 0 i (by
              rw [hx0]
              unfold StorePool.outcome
              rw [task_of_other hy hw]
              exact hi)
            exact ⟨t' + 1, Nat.zero_le _, b, hb, hbw⟩
        · obtain ⟨t', ht', b, hb, hbw⟩ := hf.fair t i hi
          exact ⟨t' + 1, Nat.succ_le_succ ht', b, hb, hbw⟩
    · cases hms

namespace C112

/-- the tasks of `C112_PoolFinish`, polled until they have ended. -/
def fairMoves : List PoolMove :=
  moves ++ [.poll 1 (.pop 1), .next 1, .ask 2, .poll 2 (.pop 2), .poll 2 (.load 2 1), .next 1, .next 1, .poll 2 (.register 2),
    .poll 2 (.pop 2), .next 2, .next 2]

example : ∃ x m, FairTasks 1 C66.server x m ∧ x 0 = PoolTasks.started C66.empty.rows C107.jobs := by
  refine Spec.FairTasks.of_moves fairMoves _ (by decide +kernel) fun z hz i => ?_
  by_cases hi : i < 3
  · have h : ((PoolTasks.started C66.empty.rows C107.jobs).run 1 C66.server fairMoves).map
        (fun x => [0, 1, 2].map fun i => (x.store.outcome i).isSome) = some [true, true, true] := by decide +kernel
    rw [hz] at h
    simp only [Option.map_some, List.map_cons, List.map_nil, Option.some.injEq, List.cons.injEq, and_true] at h
    match i, hi with
    | 0, _ => exact h.1
    | 1, _ => exact h.2.1
    | 2, _ => exact h.2.2
  · obtain ⟨sched, hsc, -⟩ := C112_store _ _ _ _ _ _ hz
    obtain ⟨n, w, -, h2, -⟩ := AllWithin.go C66.server C66.empty.rows C107.jobs (Finset.range 3) (fun i hi => by
      rw [Finset.mem_range] at hi
      match i with
      | i + 3 => rfl) sched
    rw [hsc]
    unfold StorePool.outcome
    rw [h2 i (by rw [Finset.mem_range]; exact hi)]
    rfl

end C112

end Verif

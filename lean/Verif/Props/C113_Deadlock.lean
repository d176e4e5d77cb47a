import Mathlib.Algebra.BigOperators.Group.Finset.Piecewise
import Verif.Props.C113_PoolHold

/-!
# C113 — with fewer places the tasks can lock each other up
-/

namespace Verif

open Spec (PoolHold HoldTask HoldOp HoldMove peak holdProgram)
open Spec.PoolTasks (isPoll reqState)

/-! ### a state from which nobody gets on -/

structure Locked (N : Nat) (x y : PoolHold) : Prop where
  items : y.pool.items = N
  queue : y.pool.queue = []
  calm : ∀ q ∈ y.pool.reqs, q.st ≠ .creating ∧ ∀ reg k, q.st = .loaded reg k → k < N
  same : ∀ i, (y.task i).held = (x.task i).held ∧ (y.task i).rest = (x.task i).rest
  gets : ∀ i, (∃ rest, (x.task i).rest = .get :: rest) ∨ ((x.task i).rest = [] ∧ (x.task i).held = [])

/-- a poll when all places are taken and none of the connections is idle. -/
theorem locked_poll {N : Nat} {s s' : Pool} {e : PoolEv} (he : isPoll e = true) (hi : s.items = N) (hq : s.queue = [])
    (hc : ∀ q ∈ s.reqs, q.st ≠ .creating ∧ ∀ reg k, q.st = .loaded reg k → k < N) (h : s.step N e = some s') :
    s'.items = N ∧ s'.queue = [] ∧ ∃ q', s'.reqs = s.reqs.set e.req q' ∧ (∃ q, s.reqs[e.req]? = some q) ∧
      (∀ k, q'.st ≠ .holding k) ∧ q'.st ≠ .creating ∧ ∀ reg k, q'.st = .loaded reg k → k < N := by
  rcases Pool.step_cases h with rfl | ⟨⟨st, aw⟩, hr, hs⟩
  · cases he
  · have hmem := hc _ (List.mem_of_getElem? hr)
    cases e with
    | request => cases he
    | put r => cases he
    | pop r =>
      cases st <;> simp only [Pool.stepReq, reduceCtorEq] at hs
      rw [hq] at hs
      simp only [Option.some.injEq] at hs
      subst hs
      exact ⟨hi, hq, _, rfl, ⟨_, hr⟩, by simp, by simp, by simp⟩
    | load r k =>
      cases st <;> simp only [Pool.stepReq, reduceCtorEq] at hs
      split at hs
      · split at hs
        next hk =>
          simp only [Option.some.injEq] at hs
          subst hs
          refine ⟨hi, hq, _, rfl, ⟨_, hr⟩, by simp, by simp, ?_⟩
          intro reg' k' e
          cases e
          exact hk
        · split at hs <;>
            (simp only [Option.some.injEq] at hs; subst hs; exact ⟨hi, hq, _, rfl, ⟨_, hr⟩, by simp, by simp, by simp⟩)
      · cases hs
    | cas r =>
      cases st <;> simp only [Pool.stepReq, reduceCtorEq] at hs
      next reg k =>
        have hk := hmem.2 reg k rfl
        rw [if_neg (by omega)] at hs
        simp only [Option.some.injEq] at hs
        subst hs
        exact ⟨hi, hq, _, rfl, ⟨_, hr⟩, by simp, by simp, by simp⟩
    | register r =>
      cases st <;> simp only [Pool.stepReq, reduceCtorEq] at hs
      simp only [Option.some.injEq] at hs
      subst hs
      exact ⟨hi, hq, _, rfl, ⟨_, hr⟩, by simp, by simp, by simp⟩
    | created r =>
      cases st <;> simp only [Pool.stepReq, reduceCtorEq] at hs
      exact absurd rfl hmem.1
    | createErr r =>
      cases st <;> simp only [Pool.stepReq, reduceCtorEq] at hs
      exact absurd rfl hmem.1
    | cancel r =>
      cases st <;> simp only [Pool.stepReq, reduceCtorEq] at hs
      · simp only [Option.some.injEq] at hs
        subst hs
        exact ⟨hi, hq, _, rfl, ⟨_, hr⟩, by simp, by simp, by simp⟩
      · exact absurd rfl hmem.1

theorem Locked.step {N : Nat} {x y z : PoolHold} {m : HoldMove} (h : Locked N x y) (hs : y.step N m = some z)
    (hm : ∀ i, m ≠ .quit i) : Locked N x z := by
  have set_same : ∀ (p : Pool) (i : Nat) (t : HoldTask), t.held = (y.task i).held → t.rest = (y.task i).rest →
      ∀ n, ((y.set p i t).task n).held = (x.task n).held ∧ ((y.set p i t).task n).rest = (x.task n).rest := by
    intro p i t h1 h2 n
    obtain ⟨h3, h4⟩ := h.same n
    by_cases hn : n = i
    · subst hn
      have : (y.set p n t).task n = t := if_pos rfl
      rw [this, h1, h2]
      exact ⟨h3, h4⟩
    · have : (y.set p i t).task n = y.task n := if_neg hn
      rw [this]
      exact ⟨h3, h4⟩
  unfold PoolHold.step at hs
  cases m with
  | ask i =>
    dsimp only at hs
    split at hs
    next held rest ht =>
      obtain ⟨p, hp, rfl⟩ := Option.map_eq_some_iff.1 hs
      unfold Pool.step at hp
      injection hp with hp
      subst hp
      refine ⟨h.items, h.queue, ?_, set_same _ i _ (by rw [ht]) (by rw [ht]), h.gets⟩
      intro q hq
      rcases List.mem_append.1 hq with hq | hq
      · exact h.calm q hq
      · rw [List.mem_singleton] at hq
        subst hq
        exact ⟨by simp, by simp⟩
    · cases hs
  | poll i e =>
    dsimp only at hs
    split at hs
    next r hr =>
      split at hs
      next he =>
        obtain ⟨rfl, he⟩ := he
        obtain ⟨p, hp, rfl⟩ := Option.map_eq_some_iff.1 hs
        obtain ⟨h1, h2, q', hset, ⟨q, hq⟩, h3, h4, h5⟩ := locked_poll he h.items h.queue h.calm hp
        have hlen := (List.getElem?_eq_some_iff.1 hq).1
        have hstate : reqState p e.req = some q'.st := by unfold reqState; rw [hset]; simp [hlen]
        rw [hstate]
        have hpol : ((y.task i).polled e.req (some q'.st)).held = (y.task i).held ∧
            ((y.task i).polled e.req (some q'.st)).rest = (y.task i).rest := by
          obtain ⟨st, w⟩ := q'
          cases st with
          | holding k => exact absurd rfl (h3 k)
          | _ => exact ⟨rfl, rfl⟩
        refine ⟨h1, h2, ?_, set_same _ i _ hpol.1 hpol.2, h.gets⟩
        intro q2 hq2
        have hq2' : q2 ∈ p.reqs := hq2
        rw [hset] at hq2'
        rcases List.mem_or_eq_of_mem_set hq2' with hq2' | rfl
        · exact h.calm q2 hq2'
        · exact ⟨h4, h5⟩
      · cases hs
    · cases hs
  | next i =>
    dsimp only at hs
    obtain ⟨h1, h2⟩ := h.same i
    split at hs
    next held j rest ht =>
      rw [ht] at h2
      rcases h.gets i with ⟨rest', hr⟩ | ⟨hr, -⟩
      · rw [hr] at h2; cases h2
      · rw [hr] at h2; cases h2
    next r held ht =>
      rw [ht] at h1 h2
      rcases h.gets i with ⟨rest', hr⟩ | ⟨-, hh⟩
      · rw [hr] at h2; cases h2
      · rw [hh] at h1; cases h1
    · cases hs
  | quit i => exact absurd rfl (hm i)

theorem Locked.run {N : Nat} {x y z : PoolHold} {ms : List HoldMove} (h : Locked N x y) (hs : y.run N ms = some z)
    (hm : ∀ i, .quit i ∉ ms) : Locked N x z := by
  induction ms generalizing y with
  | nil => cases hs; exact h
  | cons m ms ih =>
    unfold PoolHold.run at hs
    obtain ⟨w, h1, h2⟩ := Option.bind_eq_some_iff.1 hs
    refine ih (h.step h1 fun i e => hm i (e ▸ List.mem_cons_self)) h2 fun i hi => hm i (List.mem_cons_of_mem _ hi)

/-! ### how to get there -/

def heldReqs (m : Nat) : List Req := (List.range m).map fun j => { st := .holding j, awake := false }

/-- `m` connections have been opened, all of them are in use. -/
def usedPool (m : Nat) : Pool :=
  { items := m, queue := [], wakers := [], reqs := heldReqs m, born := m, lost := [] }

theorem heldReqs_length (m : Nat) : (heldReqs m).length = m := by
  unfold heldReqs
  rw [List.length_map, List.length_range]

/-- … and another request is in this state. -/
def usedAnd (m items born : Nat) (q : Req) : Pool :=
  { items := items, queue := [], wakers := [], reqs := heldReqs m ++ [q], born := born, lost := [] }

theorem usedAnd_get (m items born : Nat) (q : Req) : (usedAnd m items born q).reqs[m]? = some q := by
  show (heldReqs m ++ [q])[m]? = some q
  have := last_get (heldReqs m) q
  rw [heldReqs_length] at this
  exact this

theorem usedAnd_set (m items born items' born' : Nat) (q q' : Req) :
    ({ usedAnd m items born q with items := items', born := born' } : Pool).setReq m q' = usedAnd m items' born' q' := by
  unfold Pool.setReq usedAnd
  dsimp only
  congr 1
  rw [List.set_append_right _ _ (by rw [heldReqs_length]), heldReqs_length, Nat.sub_self]
  rfl

theorem hold_poll_move {N : Nat} {x : PoolHold} {p p' : Pool} {i r : Nat} {t : HoldTask} {e : PoolEv} (hw : t.want = some r)
    (he : e.req = r) (hp : isPoll e = true) (hs : p.step N e = some p') :
    (x.set p i t).step N (.poll i e) = some (x.set p' i (t.polled r (reqState p' r))) := by
  have hti : (x.set p i t).task i = t := if_pos rfl
  unfold PoolHold.step
  dsimp only
  rw [hti, hw]
  dsimp only
  rw [if_pos ⟨he, hp⟩]
  show (p.step N e).map _ = _
  rw [hs, Option.map_some]
  congr 1
  unfold PoolHold.set
  congr 1
  funext n
  by_cases hn : n = i
  · rw [if_pos hn, if_pos hn]
  · rw [if_neg hn, if_neg hn]
    exact if_neg hn

/-- a task gets a new connection. -/
theorem hold_grab {N m i : Nat} {x : PoolHold} {held : List Nat} {rest : List HoldOp} (hm : m < N)
    (hp : x.pool = usedPool m) (ht : x.task i = ⟨held, none, .get :: rest⟩) :
    x.run N [.ask i, .poll i (.pop m), .poll i (.load m m), .poll i (.cas m), .poll i (.created m)] =
      some (x.set (usedPool (m + 1)) i ⟨m :: held, none, rest⟩) := by
  have h0 : x.step N (.ask i) = some (x.set (usedAnd m m m ⟨.waiting false, true⟩) i ⟨held, some m, .get :: rest⟩) := by
    unfold PoolHold.step
    dsimp only
    rw [ht]
    dsimp only
    rw [hp]
    show some (x.set _ i ⟨held, some (heldReqs m).length, _⟩) = _
    rw [heldReqs_length]
    rfl
  have s1 : (usedAnd m m m ⟨.waiting false, true⟩).step N (.pop m) = some (usedAnd m m m ⟨.empty false, false⟩) := by
    refine pool_step (.pop m) rfl (usedAnd_get _ _ _ _) ?_
    exact congrArg some (usedAnd_set m m m m m ⟨.waiting false, true⟩ ⟨.empty false, false⟩)
  have s2 : (usedAnd m m m ⟨.empty false, false⟩).step N (.load m m) =
      some (usedAnd m m m ⟨.loaded false m, false⟩) := by
    refine pool_step (.load m m) rfl (usedAnd_get _ _ _ _) ?_
    show (if m ≤ m then if m < N then _ else _ else _) = _
    rw [if_pos (Nat.le_refl m), if_pos hm]
    exact congrArg some (usedAnd_set m m m m m ⟨.empty false, false⟩ ⟨.loaded false m, false⟩)
  have s3 : (usedAnd m m m ⟨.loaded false m, false⟩).step N (.cas m) = some (usedAnd m (m + 1) m ⟨.creating, false⟩) := by
    refine pool_step (.cas m) rfl (usedAnd_get _ _ _ _) ?_
    show (if m = m then _ else _) = _
    rw [if_pos rfl]
    exact congrArg some (usedAnd_set m m m (m + 1) m ⟨.loaded false m, false⟩ ⟨.creating, false⟩)
  have s4 : (usedAnd m (m + 1) m ⟨.creating, false⟩).step N (.created m) = some (usedPool (m + 1)) := by
    refine pool_step (.created m) rfl (usedAnd_get _ _ _ _) ?_
    show some (({ usedAnd m (m + 1) m ⟨.creating, false⟩ with items := m + 1, born := m + 1 } : Pool).setReq m _) = _
    rw [usedAnd_set]
    unfold usedPool heldReqs
    rw [List.range_succ, List.map_append]
    rfl
  have st : ∀ (a b : Nat) (q : Req), reqState (usedAnd m a b q) m = some q.st := by
    intro a b q
    unfold reqState
    rw [usedAnd_get]
    rfl
  have st4 : reqState (usedPool (m + 1)) m = some (.holding m) := by
    unfold reqState usedPool heldReqs
    simp
  rw [PoolHold.run, h0, Option.bind_some, PoolHold.run, hold_poll_move (r := m) rfl rfl rfl s1, Option.bind_some, st, PoolHold.run]
  rw [hold_poll_move (r := m) rfl rfl rfl s2, Option.bind_some, st, PoolHold.run]
  rw [hold_poll_move (r := m) rfl rfl rfl s3, Option.bind_some, st, PoolHold.run]
  rw [hold_poll_move (r := m) rfl rfl rfl s4, Option.bind_some, st4, PoolHold.run]
  rfl

/-- one after the other, tasks get connections. -/
theorem hold_reach {N : Nat} (jobs : Nat → List HoldOp) (sched : List Nat) (hl : sched.length ≤ N)
    (hj : ∀ i c, c < sched.count i → (jobs i)[c]? = some .get) :
    ∃ ms x, (PoolHold.started jobs).run N ms = some x ∧ (∀ m ∈ ms, m.keepsOn = true) ∧ x.pool = usedPool sched.length ∧
      ∀ i, (x.task i).want = none ∧ (x.task i).rest = (jobs i).drop (sched.count i) := by
  induction sched using List.reverseRecOn with
  | nil => exact ⟨[], _, rfl, by simp, rfl, fun i => ⟨rfl, rfl⟩⟩
  | append_singleton sched a ih =>
    rw [List.length_append, List.length_singleton] at hl
    have hcount : ∀ i, (sched ++ [a]).count i = sched.count i + if a = i then 1 else 0 := by
      intro i
      rw [List.count_append, List.count_singleton]
      simp
    obtain ⟨ms, x, h1, h2, h3, h4⟩ := ih (by omega) fun i c hc => hj i c (by rw [hcount]; omega)
    have hget : (jobs a)[sched.count a]? = some .get := hj a _ (by rw [hcount, if_pos rfl]; omega)
    obtain ⟨hlt, hge⟩ := List.getElem?_eq_some_iff.1 hget
    have hta : x.task a = ⟨(x.task a).held, none, .get :: (jobs a).drop (sched.count a + 1)⟩ := by
      rw [← hge, ← List.drop_eq_getElem_cons hlt, ← (h4 a).2, ← (h4 a).1]
    have hg := hold_grab (N := N) (by omega) h3 hta
    refine ⟨ms ++ _, _, hold_run_then h1 hg, List.forall_mem_append.2 ⟨h2, by simp [HoldMove.keepsOn]⟩, ?_, fun i => ?_⟩
    · rw [List.length_append, List.length_singleton]
      rfl
    · by_cases hi : i = a
      · subst hi
        have : (x.set (usedPool (sched.length + 1)) i
          ⟨sched.length :: (x.task i).held, none, (jobs i).drop (sched.count i + 1)⟩).task i = _ := if_pos rfl
        rw [this, hcount, if_pos rfl]
        exact ⟨rfl, rfl⟩
      · have : (x.set (usedPool (sched.length + 1)) a
          ⟨sched.length :: (x.task a).held, none, (jobs a).drop (sched.count a + 1)⟩).task i = x.task i := if_neg hi
        rw [this, hcount, if_neg (fun e => hi e.symm)]
        exact h4 i

/-- **C113 cannot be had with fewer places.** Tasks that begin by getting `nᵢ ≥ 1` connections one after the other, on a
pool with at most `∑ (nᵢ - 1)` places: they may come, without anything having failed, into a state in which each of them
waits for a connection, and from which, whatever they do, none of them gets on, as long as none of them gives up what it
holds. -/
theorem C113_deadlock (N : Nat) (tasks : Finset Nat) (n : Nat → Nat) (more : Nat → List HoldOp)
    (hn : ∀ i ∈ tasks, 1 ≤ n i) (hN : N ≤ ∑ i ∈ tasks, (n i - 1)) (jobs : Nat → List HoldOp)
    (hjobs : ∀ i, jobs i = if i ∈ tasks then List.replicate (n i) .get ++ more i else []) :
    ∃ ms x, (PoolHold.started jobs).run N ms = some x ∧ (∀ m ∈ ms, m.keepsOn = true) ∧
      ∀ ms' y, x.run N ms' = some y → (∀ i, .quit i ∉ ms') →
        ∀ i ∈ tasks, ¬(y.task i).ended ∧ (y.task i).held = (x.task i).held ∧ (y.task i).rest = (x.task i).rest := by
  -- who holds how many
  have hc : ∀ i, (tasks.toList.flatMap fun i => List.replicate (n i - 1) i).count i = if i ∈ tasks then n i - 1 else 0 := by
    intro i
    rw [List.count_flatMap]
    have : (List.map (List.count i ∘ fun i => List.replicate (n i - 1) i) tasks.toList).sum =
        ∑ j ∈ tasks, if j = i then n j - 1 else 0 := by
      rw [← Finset.sum_map_toList]
      congr 1
      refine List.map_congr_left fun j _ => ?_
      simp [List.count_replicate]
    rw [this, Finset.sum_ite_eq']
  generalize hL : (tasks.toList.flatMap fun i => List.replicate (n i - 1) i) = L at hc
  have hlen : N ≤ L.length := by
    rw [← hL, List.length_flatMap]
    refine hN.trans (le_of_eq ?_)
    rw [← Finset.sum_map_toList]
    congr 1
    refine List.map_congr_left fun j _ => ?_
    simp
  have hle : ∀ i, (L.take N).count i ≤ if i ∈ tasks then n i - 1 else 0 := fun i =>
    hc i ▸ (List.take_sublist N L).count_le i
  have htl : (L.take N).length = N := by rw [List.length_take]; omega
  have hlt : ∀ i ∈ tasks, (L.take N).count i < n i := by
    intro i hi
    have h1 := hle i
    have h2 := hn i hi
    rw [if_pos hi] at h1
    omega
  have hget : ∀ i c, i ∈ tasks → c < n i → (jobs i)[c]? = some .get := by
    intro i c hi hcn
    rw [hjobs, if_pos hi, List.getElem?_append_left (by rw [List.length_replicate]; exact hcn),
      List.getElem?_replicate, if_pos hcn]
  obtain ⟨ms, x, h1, h2, h3, h4⟩ := hold_reach (N := N) jobs (L.take N) htl.le (by
    intro i c hcc
    have hi : i ∈ tasks := by
      by_contra hi
      have := hle i
      rw [if_neg hi] at this
      omega
    exact hget i c hi (hcc.trans (hlt i hi)))
  rw [htl] at h3
  have hinv := (HoldInv.started N jobs).run h1
  have hgets : ∀ i ∈ tasks, ∃ rest, (x.task i).rest = .get :: rest := by
    intro i hi
    obtain ⟨hl, hg⟩ := List.getElem?_eq_some_iff.1 (hget i _ hi (hlt i hi))
    rw [(h4 i).2, List.drop_eq_getElem_cons hl, hg]
    exact ⟨_, rfl⟩
  have hlock : Locked N x x := by
    refine ⟨by rw [h3]; rfl, by rw [h3]; rfl, ?_, fun i => ⟨rfl, rfl⟩, fun i => ?_⟩
    · rw [h3]
      intro q hq
      obtain ⟨j, -, rfl⟩ := List.mem_map.1 hq
      exact ⟨by simp, by simp⟩
    · by_cases hi : i ∈ tasks
      · exact .inl (hgets i hi)
      · have := hinv.outside i (by rw [hjobs, if_neg hi])
        rw [this]
        exact .inr ⟨rfl, rfl⟩
  refine ⟨ms, x, h1, h2, fun ms' y hy hq i hi => ?_⟩
  obtain ⟨h5, h6⟩ := (hlock.run hy hq).same i
  obtain ⟨rest, hrest⟩ := hgets i hi
  refine ⟨?_, h5, h6⟩
  rintro ⟨-, -, he⟩
  rw [h6, hrest] at he
  cases he

/-! ### the migrators of C100 -/

theorem peak_holdProgram (n : Nat) (us : List PoolUse) (h : List Nat)
    (hp : ∀ p, p <+: us → (p.foldl (fun h u => match u with
      | .got i => i :: h
      | .back i => h.erase i) h).length ≤ n) : peak h.length (holdProgram h us) ≤ n := by
  induction us generalizing h with
  | nil => exact hp [] (List.prefix_refl _)
  | cons u us ih =>
    cases u with
    | got i =>
      exact ih (i :: h) fun p hpu => hp (.got i :: p) (List.cons_prefix_cons.2 ⟨rfl, hpu⟩)
    | back i =>
      refine Nat.max_le.2 ⟨hp [] List.nil_prefix, ?_⟩
      have := ih (h.erase i) fun p hpu => hp (.back i :: p) (List.cons_prefix_cons.2 ⟨rfl, hpu⟩)
      rw [List.length_erase] at this
      by_cases hi : i ∈ h
      · rw [if_pos hi] at this
        rw [if_pos (List.idxOf_lt_length_of_mem hi)]
        exact this
      · rw [if_neg hi] at this
        rw [if_neg (by rw [List.idxOf_eq_length hi]; omega)]
        exact this

/-- Several programs like `examples/migrations` at the same time, to any versions and however each of them ends, on one
pool with more than twice as many places: whatever has happened, they can come to their end.  With the ten places of the
example this is so for four of them, and with five it is not (`C113_deadlock`). -/
theorem C113_migrators (N : Nat) (tasks : Finset Nat) (debug : Bool) (fp : FloatParse) (t : Nat → Version)
    (s : Nat → PoolMig) (hs : ∀ i, (s i).hist = []) (jobs : Nat → List HoldOp)
    (hjobs : ∀ i, jobs i = if i ∈ tasks then
      holdProgram [] (migrateMain debug fp exampleLists (exampleUp fp) exampleDown (t i) (s i)).2.hist else [])
    (ms : List HoldMove) (x : PoolHold) (h : (PoolHold.started jobs).run N ms = some x)
    (hb : 2 * tasks.card + Spec.broken x.pool < N) :
    ∃ ms' y, x.run N ms' = some y ∧ (∀ m ∈ ms', m.keepsOn = true) ∧ Spec.broken y.pool = Spec.broken x.pool ∧
      ∀ i, (y.task i).ended := by
  refine C113_no_deadlock N jobs tasks (fun i hi => by rw [hjobs, if_neg hi]) ms x h ?_
  have hle : ∑ i ∈ tasks, (peak 0 (jobs i) - 1) ≤ ∑ _i ∈ tasks, 2 := by
    refine Finset.sum_le_sum fun i hi => ?_
    obtain ⟨-, -, h3⟩ := C100_limit (n := 3) (by decide) (uses_exampleUp fp) uses_exampleDown debug fp exampleLists
      (t i) (s i) (hs i)
    have := peak_holdProgram 3 _ [] h3
    rw [hjobs, if_pos hi]
    rw [List.length_nil] at this
    omega
  rw [Finset.sum_const] at hle
  change _ ≤ tasks.card * 2 at hle
  omega

/-! ### an example -/

namespace C113

/-- two tasks that get two connections each. -/
def jobs (i : Nat) : List HoldOp := if i < 2 then [.get, .get, .drop 1, .drop 0] else []

/-- each gets its first one. -/
def moves : List HoldMove :=
  [.ask 0, .poll 0 (.pop 0), .poll 0 (.load 0 0), .poll 0 (.cas 0), .poll 0 (.created 0),
   .ask 1, .poll 1 (.pop 1), .poll 1 (.load 1 1), .poll 1 (.cas 1), .poll 1 (.created 1),
   .ask 0, .poll 0 (.pop 2), .ask 1, .poll 1 (.pop 3)]

/-- two places are too few, -/
example : ((PoolHold.started jobs).run 2 moves).map (fun x => (x.pool.items, x.pool.queue, [0, 1].map x.task)) =
    some (2, [], [⟨[0], some 2, [.get, .drop 1, .drop 0]⟩, ⟨[1], some 3, [.get, .drop 1, .drop 0]⟩]) := by
  decide +kernel

/-- if one of them gives up the other one can go on, -/
example : ((PoolHold.started jobs).run 2 (moves ++ [.poll 1 (.load 3 2), .poll 1 (.register 3), .poll 1 (.cancel 3), .quit 1,
      .next 1, .poll 0 (.load 2 2), .poll 0 (.register 2), .poll 0 (.pop 2), .next 0, .next 0])).map
      (fun x => (x.pool.items, x.pool.queue, [0, 1].map x.task)) =
    some (2, [0, 1], [⟨[], none, []⟩, ⟨[], none, []⟩]) := by
  decide +kernel

/-- and with three places they get through. -/
example : ((PoolHold.started jobs).run 3 (moves ++ [.poll 0 (.load 2 2), .poll 0 (.cas 2), .poll 0 (.created 2), .next 0,
      .next 0, .poll 1 (.load 3 3), .poll 1 (.register 3), .poll 1 (.pop 3), .next 1, .next 1])).map
      (fun x => (x.pool.items, x.pool.queue, [0, 1].map x.task)) =
    some (3, [2, 1, 0], [⟨[], none, []⟩, ⟨[], none, []⟩]) := by
  decide +kernel

example : peak 0 (jobs 0) = 2 ∧ peak 0 (holdProgram [] [.got 0, .got 1, .back 0, .got 0, .got 2, .back 1]) = 3 := by
  refine ⟨?_, ?_⟩ <;> decide +kernel

end C113

end Verif

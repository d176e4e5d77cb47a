import Verif.Props.C110_StorePool
import Verif.Props.C38_Pool
import Verif.Spec.PoolTasks

/-!
# C112 — tasks store models on the connections of the library's pool
-/

namespace Verif

open Spec (SqlServer PoolTasks PoolMove StorePool StoreJob StoreTask Tables)
open Spec.SqlServer (Session Happens)
open Spec.PoolTasks (isPoll reqState)

/-! ### steps of one request -/

/-- what a step of a waiting request leads to. -/
theorem step_poll {N : Nat} {s s' : Pool} {e : PoolEv} (he : isPoll e = true) (h : s.step N e = some s') :
    ∃ q q', s.reqs[e.req]? = some q ∧ s'.reqs = s.reqs.set e.req q' ∧ s.born ≤ s'.born ∧
      (∀ k, q.st ≠ .holding k) ∧ q.st ≠ .failed ∧ q.st ≠ .dropped ∧ q.st ≠ .gone := by
  rcases Pool.step_cases h with rfl | ⟨⟨st, aw⟩, hq, hs⟩
  · cases he
  · cases e <;> first
      | (cases he; done)
      | (cases st <;>
          (simp only [Pool.stepReq, reduceCtorEq] at hs
           try (repeat' split at hs)
           all_goals first
             | (cases hs; done)
             | (simp only [Option.some.injEq] at hs
                subst hs
                exact ⟨_, _, hq, rfl, by simp [Pool.setReq], by simp, by simp, by simp, by simp⟩)))

theorem step_put {N : Nat} {s s' : Pool} {r : Nat} (h : s.step N (.put r) = some s') :
    ∃ q q' k, s.reqs[r]? = some q ∧ q.st = .holding k ∧ s'.reqs = s.reqs.set r q' ∧ q'.st = .gone ∧ s'.born = s.born := by
  rcases Pool.step_cases h with h' | ⟨⟨st, aw⟩, hq, hs⟩
  · cases h'
  · cases st <;> simp only [Pool.stepReq, reduceCtorEq] at hs
    split at hs <;>
      (simp only [Option.some.injEq] at hs; subst hs; exact ⟨_, _, _, hq, rfl, rfl, rfl, rfl⟩)

/-! ### who is where -/

/-- what a request is about to do, and what its task is about to do. -/
def ReqFits (st : ReqState) (t : Except Spec.SqlError StoreTask) : Prop :=
  match st with
  | .holding k => ∃ ids j p rest, t = .ok ⟨ids, some (k, j, p), rest⟩
  | .failed => False
  | .dropped => False
  | .gone => False
  | _ => ∃ ids j rest, t = .ok ⟨ids, none, j :: rest⟩

/-- a request that is over. -/
def ReqState.over : ReqState → Bool
  | .failed => true | .dropped => true | .gone => true
  | _ => false

structure PoolTogether (N : Nat) (S : SqlServer) (rows : Tables) (jobs : Nat → List StoreJob) (x : PoolTasks) : Prop where
  pool : ∃ es, Pool.new.run N es = some x.pool
  store : ∃ sched, x.store = (StorePool.started rows jobs).go S sched ∧ ∀ t ∈ sched, t.2 < N
  mine : ∀ i r, x.req i = some r → ∃ q, x.pool.reqs[r]? = some q ∧ ReqFits q.st (x.store.task i)
  idle : ∀ i, x.req i = none → ∀ ids k j p rest, x.store.task i ≠ .ok ⟨ids, some (k, j, p), rest⟩
  alone : ∀ i i' r, x.req i = some r → x.req i' = some r → i = i'
  owned : ∀ r q, x.pool.reqs[r]? = some q → q.st.over = false → ∃ i, x.req i = some r

theorem pool_run_step {N : Nat} {es : List PoolEv} {s s' : Pool} {e : PoolEv} (h : Pool.new.run N es = some s)
    (hs : s.step N e = some s') : Pool.new.run N (es ++ [e]) = some s' := by
  refine Pool.run_append h ?_
  unfold Pool.run
  rw [hs]
  rfl

theorem store_go_turn {S : SqlServer} {rows : Tables} {jobs : Nat → List StoreJob} {x : StorePool}
    {sched : List (Nat × Nat)} (h : x = (StorePool.started rows jobs).go S sched) (t : Nat × Nat) :
    x.turn S t = (StorePool.started rows jobs).go S (sched ++ [t]) := by
  rw [StorePool.go, List.foldl_append, List.foldl_cons, List.foldl_nil, ← StorePool.go, ← h]

/-- the turn of a task changes no other task. -/
theorem turn_other (S : SqlServer) (x : StorePool) (i k i' : Nat) (h : i' ≠ i) : (x.turn S (i, k)).task i' = x.task i' := by
  unfold StorePool.turn
  dsimp only
  split
  · split
    · exact if_neg h
    · rfl
  · split <;> exact if_neg h
  · exact if_neg h
  · rfl

theorem born_le {N : Nat} {s : Pool} (h : PoolInv N s) : s.born ≤ N := by
  have h1 := h.count
  have h2 := h.limit
  have hsub : List.range s.born ⊆ Spec.inUse s ++ s.queue := by
    intro x hx
    have := h.conns x
    rw [if_pos (List.mem_range.1 hx)] at this
    rw [List.mem_append]
    by_contra hc
    rw [not_or] at hc
    rw [List.count_eq_zero_of_not_mem hc.1, List.count_eq_zero_of_not_mem hc.2] at this
    cases this
  have := (List.Nodup.subperm (List.nodup_range) hsub).length_le
  rw [List.length_range, List.length_append] at this
  omega

theorem holding_lt {N : Nat} {s : Pool} (h : PoolInv N s) {r k : Nat} {w : Bool}
    (hr : s.reqs[r]? = some { st := .holding k, awake := w }) : k < N := by
  have hm : k ∈ Spec.inUse s := List.mem_filterMap.2 ⟨_, List.mem_of_getElem? hr, rfl⟩
  have := h.conns k
  have hp := List.count_pos_iff.2 hm
  have hb := born_le h
  by_cases hk : k < s.born
  · omega
  · rw [if_neg hk] at this
    omega

/-- nobody holds the connection that a request of a task without one gets. -/
theorem PoolTogether.free {N : Nat} {S : SqlServer} {rows : Tables} {jobs : Nat → List StoreJob} {x : PoolTasks}
    (h : PoolTogether N S rows jobs x) {p : Pool} {e : PoolEv} (he : isPoll e = true) (hs : x.pool.step N e = some p) {k : Nat}
    {w : Bool} (hk : p.reqs[e.req]? = some { st := .holding k, awake := w }) : x.store.held k = none := by
  obtain ⟨es, hes⟩ := h.pool
  obtain ⟨sched, hsc, -⟩ := h.store
  match hh : x.store.held k with
  | none => rfl
  | some i' =>
    exfalso
    rw [hsc] at hh
    obtain ⟨ids, j, sc, rest, ht⟩ := (holders S jobs rows sched k i').1 hh
    rw [← hsc] at ht
    match hr' : x.req i' with
    | none => exact h.idle i' hr' _ _ _ _ _ ht
    | some r' =>
      obtain ⟨⟨st', w'⟩, hq', hm⟩ := h.mine i' r' hr'
      have hst : st' = .holding k := by
        cases st' <;> simp only [ReqFits, ht, Except.ok.injEq, StoreTask.mk.injEq, Option.some.injEq, Prod.mk.injEq,
          reduceCtorEq, and_false, false_and, exists_false] at hm
        obtain ⟨_, _, _, _, _, ⟨rfl, _⟩, _⟩ := hm
        rfl
      subst hst
      obtain ⟨q, q', hq, hset, -, hnh, -⟩ := step_poll he hs
      have hne : r' ≠ e.req := by
        rintro rfl
        rw [hq] at hq'
        injection hq' with hq'
        exact hnh k (by rw [hq'])
      have hr2 : p.reqs[r']? = some { st := .holding k, awake := w' } := by
        rw [hset, List.getElem?_set_ne (fun hh => hne hh.symm)]
        exact hq'
      exact hne ((C38_exclusive N _ p (pool_run_step hes hs) _ r' k w w' hk).1 hr2)

theorem PoolTogether.started (N : Nat) (S : SqlServer) (rows : Tables) (jobs : Nat → List StoreJob) :
    PoolTogether N S rows jobs (PoolTasks.started rows jobs) where
  pool := ⟨[], rfl⟩
  store := ⟨[], rfl, by simp⟩
  mine := by intro i r h; cases h
  idle := by
    intro i _ ids k j p rest h
    cases h
  alone := by intro i i' r h; cases h
  owned := by intro r q h; simp [PoolTasks.started, Pool.new] at h

theorem PoolTogether.step {N : Nat} {S : SqlServer} {rows : Tables} {jobs : Nat → List StoreJob} {x y : PoolTasks}
    {m : PoolMove} (h : PoolTogether N S rows jobs x) (hs : x.step N S m = some y) : PoolTogether N S rows jobs y := by
  obtain ⟨es, hes⟩ := h.pool
  obtain ⟨sched, hsc, hlt⟩ := h.store
  cases m with
  | ask i =>
    unfold PoolTasks.step at hs
    dsimp only at hs
    split at hs
    next ids j rest ht hr =>
      obtain ⟨p, hp, rfl⟩ := Option.map_eq_some_iff.1 hs
      have hp' := hp
      cases hp
      refine ⟨⟨_, pool_run_step hes hp'⟩, ⟨sched, hsc, hlt⟩, ?_, ?_, ?_, ?_⟩
      · intro i' r' hr'
        simp only [PoolTasks.setReq] at hr' ⊢
        split at hr'
        · rename_i hi
          subst hi
          injection hr' with hr'
          subst hr'
          refine ⟨⟨.waiting false, true⟩, by simp, ?_⟩
          exact ⟨ids, j, rest, ht⟩
        · obtain ⟨q, hq, hm⟩ := h.mine i' r' hr'
          refine ⟨q, ?_, hm⟩
          rw [List.getElem?_append_left (List.getElem?_eq_some_iff.1 hq).1]
          exact hq
      · intro i' hr'
        simp only [PoolTasks.setReq] at hr' ⊢
        split at hr'
        · cases hr'
        · exact h.idle i' hr'
      · intro i1 i2 r h1 h2
        simp only [PoolTasks.setReq] at h1 h2
        have fresh : ∀ i', x.req i' ≠ some x.pool.reqs.length := by
          intro i' hi'
          obtain ⟨q, hq, -⟩ := h.mine i' _ hi'
          have := (List.getElem?_eq_some_iff.1 hq).1
          omega
        split at h1 <;> split at h2
        · subst_vars; rfl
        · injection h1 with h1; subst h1; exact absurd h2 (fresh _)
        · injection h2 with h2; subst h2; exact absurd h1 (fresh _)
        · exact h.alone i1 i2 r h1 h2
      · intro r q hq ho
        simp only [PoolTasks.setReq] at hq ⊢
        by_cases hlen : r < x.pool.reqs.length
        · rw [List.getElem?_append_left hlen] at hq
          obtain ⟨i', hi'⟩ := h.owned r q hq ho
          refine ⟨i', ?_⟩
          rw [if_neg (by rintro rfl; rw [hr] at hi'; cases hi')]
          exact hi'
        · have : r = x.pool.reqs.length := by
            have := (List.getElem?_eq_some_iff.1 hq).1
            simp at this
            omega
          exact ⟨i, by rw [if_pos rfl, this]⟩
    · cases hs
  | poll i e =>
    unfold PoolTasks.step at hs
    dsimp only at hs
    split at hs
    next r hr =>
      split at hs
      next he =>
        obtain ⟨rfl, hpoll⟩ := he
        obtain ⟨p, hp, rfl⟩ := Option.map_eq_some_iff.1 hs
        obtain ⟨q, q', hq, hset, -, hnh, hn1, hn2, hn3⟩ := step_poll hpoll hp
        have hlen := (List.getElem?_eq_some_iff.1 hq).1
        have hrun := pool_run_step hes hp
        have hinv : PoolInv N p := (PoolInv.new N).run hrun
        have hnew : p.reqs[e.req]? = some q' := by rw [hset]; simp [hlen]
        have hold : ∀ r', r' ≠ e.req → p.reqs[r']? = x.pool.reqs[r']? := by
          intro r' hr'
          rw [hset, List.getElem?_set_ne (fun hh => hr' hh.symm)]
        have hstate : reqState p e.req = some q'.st := by unfold reqState; rw [hnew]; rfl
        -- the task of this request has none
        have htask : ∃ ids j rest, x.store.task i = .ok ⟨ids, none, j :: rest⟩ := by
          obtain ⟨q2, hq2, hm⟩ := h.mine i _ hr
          rw [hq] at hq2
          injection hq2 with hq2
          subst hq2
          revert hnh hn1 hn2 hn3 hm
          cases q.st with
          | holding k => intro hnh; exact absurd rfl (hnh k)
          | failed => intro _ h1; exact absurd rfl h1
          | dropped => intro _ _ h1; exact absurd rfl h1
          | gone => intro _ _ _ h1; exact absurd rfl h1
          | _ => intro _ _ _ _ hm; exact hm
        obtain ⟨ids, j, rest, ht⟩ := htask
        -- three cases
        have forget : q'.st.over = true → PoolTogether N S rows jobs ({ x with pool := p }.setReq i none) := by
          intro ho
          refine ⟨⟨_, hrun⟩, ⟨sched, hsc, hlt⟩, ?_, ?_, ?_, ?_⟩
          · intro i' r' hr'
            simp only [PoolTasks.setReq] at hr' ⊢
            split at hr'
            · cases hr'
            · rename_i hi
              obtain ⟨q2, hq2, hm⟩ := h.mine i' r' hr'
              have hne : r' ≠ e.req := by rintro rfl; exact hi (h.alone _ _ _ hr' hr)
              exact ⟨q2, by rw [hold _ hne]; exact hq2, hm⟩
          · intro i' hr'
            simp only [PoolTasks.setReq] at hr' ⊢
            split at hr'
            · rename_i hi
              subst hi
              intro _ _ _ _ _ h'
              rw [ht] at h'
              cases h'
            · exact h.idle i' hr'
          · intro i1 i2 r h1 h2
            simp only [PoolTasks.setReq] at h1 h2
            split at h1
            · cases h1
            · split at h2
              · cases h2
              · exact h.alone i1 i2 r h1 h2
          · intro r' q2 hq2 ho2
            simp only [PoolTasks.setReq] at hq2 ⊢
            have hne : r' ≠ e.req := by
              rintro rfl
              rw [hnew] at hq2
              injection hq2 with hq2
              subst hq2
              rw [ho] at ho2
              cases ho2
            rw [hold _ hne] at hq2
            obtain ⟨i', hi'⟩ := h.owned r' q2 hq2 ho2
            refine ⟨i', ?_⟩
            rw [if_neg (by rintro rfl; rw [hr] at hi'; injection hi' with hi'; exact hne hi'.symm)]
            exact hi'
        have stay : ∀ st', st' = x.store ∨ (∃ k, q'.st = .holding k ∧ st' = x.store.turn S (i, k)) →
            ReqFits q'.st (st'.task i) → PoolTogether N S rows jobs { x with pool := p, store := st' } := by
          intro st' hst' hm'
          have hoth : ∀ i', i' ≠ i → st'.task i' = x.store.task i' := by
            intro i' hi'
            rcases hst' with rfl | ⟨k, -, rfl⟩
            · rfl
            · exact turn_other S x.store i k i' hi'
          refine ⟨⟨_, hrun⟩, ?_, ?_, ?_, h.alone, ?_⟩
          · rcases hst' with rfl | ⟨k, hk, rfl⟩
            · exact ⟨sched, hsc, hlt⟩
            · refine ⟨sched ++ [(i, k)], store_go_turn hsc _, fun t htm => ?_⟩
              rcases List.mem_append.1 htm with htm | htm
              · exact hlt t htm
              · rw [List.mem_singleton] at htm
                subst htm
                obtain ⟨st2, w2⟩ := q'
                dsimp only at hk
                subst hk
                exact holding_lt hinv hnew
          · intro i' r' hr'
            dsimp only at hr' ⊢
            by_cases hi : i' = i
            · subst hi
              rw [hr] at hr'
              injection hr' with hr'
              subst hr'
              exact ⟨q', hnew, hm'⟩
            · obtain ⟨q2, hq2, hm⟩ := h.mine i' r' hr'
              have hne : r' ≠ e.req := by rintro rfl; exact hi (h.alone _ _ _ hr' hr)
              exact ⟨q2, by rw [hold _ hne]; exact hq2, by rw [hoth i' hi]; exact hm⟩
          · intro i' hr'
            dsimp only at hr' ⊢
            have hi : i' ≠ i := by rintro rfl; rw [hr] at hr'; cases hr'
            rw [hoth i' hi]
            exact h.idle i' hr'
          · intro r' q2 hq2 ho2
            dsimp only at hq2 ⊢
            by_cases hne : r' = e.req
            · subst hne; exact ⟨i, hr⟩
            · rw [hold _ hne] at hq2
              exact h.owned r' q2 hq2 ho2
        have wait : ReqFits q'.st (x.store.task i) → PoolTogether N S rows jobs { x with pool := p } := fun hm =>
          stay x.store (.inl rfl) hm
        unfold PoolTasks.polled
        dsimp only
        rw [hstate]
        revert forget stay wait
        cases hst : q'.st with
        | holding k =>
          intro _ stay _
          dsimp only
          refine stay _ (.inr ⟨k, rfl, rfl⟩) ?_
          have hfree : x.store.held k = none := by
            obtain ⟨st2, w2⟩ := q'
            dsimp only at hst
            subst hst
            exact h.free hpoll hp hnew
          unfold StorePool.turn
          dsimp only
          rw [ht]
          dsimp only
          rw [if_pos hfree]
          dsimp only
          rw [if_pos rfl]
          exact ⟨_, _, _, _, rfl⟩
        | failed => intro forget _ _; exact forget rfl
        | dropped => intro forget _ _; exact forget rfl
        | gone => intro forget _ _; exact forget rfl
        | _ => intro _ _ wait; exact wait ⟨ids, j, rest, ht⟩
      · cases hs
    · cases hs
  | next i =>
    unfold PoolTasks.step at hs
    dsimp only at hs
    split at hs
    next ids k j sc rest r ht hr =>
      obtain ⟨⟨st, w⟩, hq, hm⟩ := h.mine i r hr
      have hst : st = .holding k := by
        cases st <;> simp only [ReqFits, ht, Except.ok.injEq, StoreTask.mk.injEq, Option.some.injEq, Prod.mk.injEq,
          reduceCtorEq, and_false, false_and, exists_false] at hm
        obtain ⟨_, _, _, _, _, ⟨rfl, _⟩, _⟩ := hm
        rfl
      subst hst
      have hinv : PoolInv N x.pool := (PoolInv.new N).run hes
      have hkN := holding_lt hinv hq
      have hsc' : ∃ sched', x.store.turn S (i, k) = (StorePool.started rows jobs).go S sched' ∧ ∀ t ∈ sched', t.2 < N := by
        refine ⟨sched ++ [(i, k)], store_go_turn hsc _, fun t htm => ?_⟩
        rcases List.mem_append.1 htm with htm | htm
        · exact hlt t htm
        · rw [List.mem_singleton] at htm
          subst htm
          exact hkN
      have hoth := turn_other S x.store i k
      split at hs
      next hheld =>
        obtain ⟨p, hp, rfl⟩ := Option.map_eq_some_iff.1 hs
        obtain ⟨q, q', k', hq0, hqk, hset, hq'g, -⟩ := step_put hp
        have hlen := (List.getElem?_eq_some_iff.1 hq0).1
        have hnew : p.reqs[r]? = some q' := by rw [hset]; simp [hlen]
        have hold : ∀ r', r' ≠ r → p.reqs[r']? = x.pool.reqs[r']? := by
          intro r' hr'
          rw [hset, List.getElem?_set_ne (fun hh => hr' hh.symm)]
        refine ⟨⟨_, pool_run_step hes hp⟩, hsc', ?_, ?_, ?_, ?_⟩
        · intro i' r' hr'
          simp only [PoolTasks.setReq] at hr' ⊢
          split at hr'
          · cases hr'
          · rename_i hi
            obtain ⟨q2, hq2, hm⟩ := h.mine i' r' hr'
            have hne : r' ≠ r := by rintro rfl; exact hi (h.alone _ _ _ hr' hr)
            exact ⟨q2, by rw [hold _ hne]; exact hq2, by rw [hoth i' hi]; exact hm⟩
        · intro i' hr'
          simp only [PoolTasks.setReq] at hr' ⊢
          split at hr'
          · rename_i hi
            subst hi
            intro ids2 k2 j2 p2 rest2 h2
            -- it holds nothing
            obtain ⟨sched', e', -⟩ := hsc'
            have hk2 : k2 = k := by
              unfold StorePool.turn at h2
              dsimp only at h2
              rw [ht] at h2
              cases sc with
              | done id => dsimp only at h2; rw [if_pos rfl] at h2; cases h2
              | stmt s f =>
                dsimp only at h2
                split at h2
                · dsimp only at h2; rw [if_pos rfl] at h2; cases h2
                · dsimp only at h2; rw [if_pos rfl] at h2; injection h2 with h2; injection h2 with _ h2; injection h2 with h2; injection h2 with h2; exact h2.symm
            subst hk2
            rw [e'] at h2 hheld
            rw [(holders S jobs rows sched' k2 i').2 ⟨_, _, _, _, h2⟩] at hheld
            cases hheld
          · rename_i hi
            rw [hoth i' hi]
            exact h.idle i' hr'
        · intro i1 i2 r h1 h2
          simp only [PoolTasks.setReq] at h1 h2
          split at h1
          · cases h1
          · split at h2
            · cases h2
            · exact h.alone i1 i2 r h1 h2
        · intro r' q2 hq2 ho2
          simp only [PoolTasks.setReq] at hq2 ⊢
          have hne : r' ≠ r := by
            rintro rfl
            rw [hnew] at hq2
            injection hq2 with hq2
            subst hq2
            rw [hq'g] at ho2
            cases ho2
          rw [hold _ hne] at hq2
          obtain ⟨i', hi'⟩ := h.owned r' q2 hq2 ho2
          refine ⟨i', ?_⟩
          rw [if_neg (by rintro rfl; rw [hr] at hi'; injection hi' with hi'; exact hne hi'.symm)]
          exact hi'
      next hheld =>
        cases hs
        obtain ⟨sched', e', hlt'⟩ := hsc'
        have hbusy : ∃ ids j p rest, (x.store.turn S (i, k)).task i = .ok ⟨ids, some (k, j, p), rest⟩ := by
          match hh : (x.store.turn S (i, k)).held k with
          | none => exact absurd hh hheld
          | some i0 =>
            have hh0 := hh
            rw [e'] at hh
            have hb := (holders S jobs rows sched' k i0).1 hh
            rw [← e'] at hb
            by_cases hi0 : i0 = i
            · subst hi0; exact hb
            · obtain ⟨_, _, _, _, hb⟩ := hb
              rw [hoth i0 hi0] at hb
              rw [hsc] at ht hb
              have a := (holders S jobs rows sched k i).2 ⟨_, _, _, _, ht⟩
              have b := (holders S jobs rows sched k i0).2 ⟨_, _, _, _, hb⟩
              rw [a] at b
              injection b with b
              exact absurd b.symm hi0
        refine ⟨⟨_, hes⟩, ⟨sched', e', hlt'⟩, ?_, ?_, h.alone, h.owned⟩
        · intro i' r' hr'
          dsimp only at hr' ⊢
          by_cases hi : i' = i
          · subst hi
            rw [hr] at hr'
            injection hr' with hr'
            subst hr'
            exact ⟨_, hq, hbusy⟩
          · rw [hoth i' hi]
            exact h.mine i' r' hr'
        · intro i' hr'
          dsimp only at hr' ⊢
          have hi : i' ≠ i := by rintro rfl; rw [hr] at hr'; cases hr'
          rw [hoth i' hi]
          exact h.idle i' hr'
    · cases hs

theorem PoolTogether.run {N : Nat} {S : SqlServer} {rows : Tables} {jobs : Nat → List StoreJob} {x y : PoolTasks}
    {ms : List PoolMove} (h : PoolTogether N S rows jobs x) (hs : x.run N S ms = some y) : PoolTogether N S rows jobs y := by
  induction ms generalizing x with
  | nil => cases hs; exact h
  | cons m ms ih =>
    unfold PoolTasks.run at hs
    obtain ⟨z, h1, h2⟩ := Option.bind_eq_some_iff.1 hs
    exact ih (h.step h1) h2

/-- a connection is held in the tasks' eyes exactly if a request of this task holds it in the pool's. -/
theorem PoolTogether.holds {N : Nat} {S : SqlServer} {rows : Tables} {jobs : Nat → List StoreJob} {x : PoolTasks}
    (h : PoolTogether N S rows jobs x) (k i : Nat) :
    x.store.held k = some i ↔ ∃ r w, x.req i = some r ∧ x.pool.reqs[r]? = some { st := .holding k, awake := w } := by
  obtain ⟨sched, hsc, -⟩ := h.store
  have hh := holders S jobs rows sched k i
  rw [← hsc] at hh
  rw [hh]
  constructor
  · rintro ⟨ids, j, sc, rest, ht⟩
    match hr : x.req i with
    | none => exact absurd ht (h.idle i hr _ _ _ _ _)
    | some r =>
      obtain ⟨⟨st, w⟩, hq, hm⟩ := h.mine i r hr
      have hst : st = .holding k := by
        cases st <;> simp only [ReqFits, ht, Except.ok.injEq, StoreTask.mk.injEq, Option.some.injEq, Prod.mk.injEq,
          reduceCtorEq, and_false, false_and, exists_false] at hm
        obtain ⟨_, _, _, _, _, ⟨rfl, _⟩, _⟩ := hm
        rfl
      subst hst
      exact ⟨r, w, rfl, hq⟩
  · rintro ⟨r, w, hr, hq⟩
    obtain ⟨q, hq', hm⟩ := h.mine i r hr
    rw [hq] at hq'
    injection hq' with hq'
    subst hq'
    exact hm

/-! ### the property -/

/-- **C112.** Whatever the tasks, the executor and the pool do in whatever order, the tasks have done what they could
have done with the connections `0 … N-1`, each taken only while nobody holds it: the pool is the one of C110. -/
theorem C112_store (N : Nat) (S : SqlServer) (rows : Tables) (jobs : Nat → List StoreJob) (ms : List PoolMove)
    (x : PoolTasks) (h : (PoolTasks.started rows jobs).run N S ms = some x) :
    ∃ sched, x.store = (StorePool.started rows jobs).go S sched ∧ ∀ t ∈ sched, t.2 < N :=
  ((PoolTogether.started N S rows jobs).run h).store

/-- … a connection that is being used for a job is the connection of one live `PoolItem`, that of this task, and is
not in the queue … -/
theorem C112_taken (N : Nat) (S : SqlServer) (rows : Tables) (jobs : Nat → List StoreJob) (ms : List PoolMove)
    (x : PoolTasks) (h : (PoolTasks.started rows jobs).run N S ms = some x) (i k : Nat) {ids : List UInt64} {j : StoreJob}
    {p : Spec.Script UInt64} {rest : List StoreJob} (ht : x.store.task i = .ok ⟨ids, some (k, j, p), rest⟩) :
    (∃ r w, x.req i = some r ∧ x.pool.reqs[r]? = some { st := .holding k, awake := w } ∧
      ∀ r' w', x.pool.reqs[r']? = some { st := .holding k, awake := w' } → r' = r) ∧ k ∉ x.pool.queue := by
  have hi := (PoolTogether.started N S rows jobs).run h
  obtain ⟨es, hes⟩ := hi.pool
  obtain ⟨sched, hsc, -⟩ := hi.store
  have hk : x.store.held k = some i := by
    rw [hsc] at ht ⊢
    exact (holders S jobs rows sched k i).2 ⟨_, _, _, _, ht⟩
  obtain ⟨r, w, hr, hq⟩ := (hi.holds k i).1 hk
  exact ⟨⟨r, w, hr, hq, fun r' w' h' => (C38_exclusive N es _ hes r r' k w w' hq).1 h'⟩,
    (C38_exclusive N es _ hes r 0 k w w hq).2⟩

/-- nobody uses an idle connection. -/
theorem PoolTogether.idle_free {N : Nat} {S : SqlServer} {rows : Tables} {jobs : Nat → List StoreJob} {x : PoolTasks}
    (h : PoolTogether N S rows jobs x) {k : Nat} (hk : k ∈ x.pool.queue) : x.store.held k = none := by
  match hh : x.store.held k with
  | none => rfl
  | some i =>
    obtain ⟨r, w, hr, hq⟩ := (h.holds k i).1 hh
    obtain ⟨es, hes⟩ := h.pool
    exact absurd hk (C38_exclusive N es _ hes r 0 k w w hq).2

/-- … there is a conversation of all connections with the server such that on every connection that is in the queue the
jobs served on it, run by the code one after the other, have the results the tasks have got, send these commands and
leave the connection at rest … -/
theorem C112_run (N : Nat) (S : SqlServer) (hS : Fair S) (jobs : Nat → List StoreJob)
    (hj : ∀ i, ∀ j ∈ jobs i, j.Fits) (rows : Tables) (ss : Nat → Session) (ms : List PoolMove) (x : PoolTasks)
    (h : (PoolTasks.started rows jobs).run N S ms = some x) :
    ∃ msgs ss' sent, S.talkEach rows ss msgs = some (x.store.rows, ss', sent) ∧
      ∀ k ∈ x.pool.queue, ∀ (c : Conn) (r : List Rx), AtRest S c (rxOf (sent k) ++ r) → ∃ q,
        runEach ((x.store.servedOn k).map (·.job)) c = ((x.store.servedOn k).map fun s => outOf S s.result,
          { c with rx := r, tx := c.tx ++ Spec.commands (Spec.cmdsBy k msgs), seqId := q }) := by
  have hi := (PoolTogether.started N S rows jobs).run h
  obtain ⟨sched, hsc, -⟩ := hi.store
  obtain ⟨msgs, ss', sent, h1, h2⟩ := C110_run S hS jobs hj rows ss sched x.store hsc
  exact ⟨msgs, ss', sent, h1, fun k hk => h2 k (hi.idle_free hk)⟩

/-- … every job that has ended was served on one of the `N` connections … -/
theorem C112_served (N : Nat) (S : SqlServer) (rows : Tables) (jobs : Nat → List StoreJob) (ms : List PoolMove)
    (x : PoolTasks) (h : (PoolTasks.started rows jobs).run N S ms = some x) : ∀ s ∈ x.store.served, s.conn < N := by
  obtain ⟨sched, hsc, hlt⟩ := C112_store N S rows jobs ms x h
  rw [hsc]
  clear hsc h
  suffices H : (∀ s ∈ ((StorePool.started rows jobs).go S sched).served, s.conn < N) ∧
      (∀ i ids k j p rest, ((StorePool.started rows jobs).go S sched).task i = .ok ⟨ids, some (k, j, p), rest⟩ → k < N)
    from H.1
  induction sched using List.reverseRecOn with
  | nil =>
    refine ⟨by (intro s hs; cases hs), ?_⟩
    intro i ids k j p rest ht
    cases ht
  | append_singleton sched t ih =>
    obtain ⟨h1, h2⟩ := ih fun t' ht' => hlt t' (List.mem_append_left _ ht')
    have hk := hlt t (List.mem_append_right _ (List.mem_singleton.2 rfl))
    obtain ⟨i, k⟩ := t
    rw [← store_go_turn rfl]
    generalize (StorePool.started rows jobs).go S sched = y at h1 h2 ⊢
    unfold StorePool.turn
    dsimp only at hk ⊢
    split
    next ids j rest ht =>
      split
      · refine ⟨h1, fun i' ids' k' j' p' rest' h' => ?_⟩
        dsimp only at h'
        split at h'
        · cases h'; exact hk
        · exact h2 _ _ _ _ _ _ h'
      · exact ⟨h1, h2⟩
    next ids k0 j s f rest ht =>
      have hk0 := h2 _ _ _ _ _ _ ht
      split
      · refine ⟨fun a ha => ?_, fun i' ids' k' j' p' rest' h' => ?_⟩
        · rcases List.mem_append.1 ha with ha | ha
          · exact h1 a ha
          · rw [List.mem_singleton] at ha; subst ha; exact hk0
        · dsimp only at h'
          split at h'
          · cases h'
          · exact h2 _ _ _ _ _ _ h'
      · refine ⟨h1, fun i' ids' k' j' p' rest' h' => ?_⟩
        dsimp only at h'
        split at h'
        · cases h'; exact hk0
        · exact h2 _ _ _ _ _ _ h'
    next ids k0 j id rest ht =>
      have hk0 := h2 _ _ _ _ _ _ ht
      refine ⟨fun a ha => ?_, fun i' ids' k' j' p' rest' h' => ?_⟩
      · rcases List.mem_append.1 ha with ha | ha
        · exact h1 a ha
        · rw [List.mem_singleton] at ha; subst ha; exact hk0
      · dsimp only at h'
        split at h'
        · cases h'
        · exact h2 _ _ _ _ _ _ h'
    · exact ⟨h1, h2⟩

/-- … and the tasks have the ids and errors of a history of the tables in which each of them did its own jobs. -/
theorem C112_history (N : Nat) (S : SqlServer) (jobs : Nat → List StoreJob) (hj : ∀ i, ∀ j ∈ jobs i, j.Fits)
    (rows : Tables) (ms : List PoolMove) (x : PoolTasks) (h : (PoolTasks.started rows jobs).run N S ms = some x) :
    Happens S rows x.store.hist x.store.rows ∧
    ∀ i, match x.store.outcome i with
      | some (.ok ids) => Spec.JobsDone (jobs i) (Spec.eventsBy i x.store.hist) ids
      | some (.error e) => ∃ s h1 h2 rows1, x.store.hist = h1 ++ h2 ∧ Spec.eventsBy i h2 = [] ∧
          Happens S rows h1 rows1 ∧ Spec.JobsAt (jobs i) (Spec.eventsBy i x.store.hist) s ∧
          S.refuses rows1 (S.after rows1 s) = some e
      | none => (∃ s, Spec.JobsAt (jobs i) (Spec.eventsBy i x.store.hist) s) ∨
          ∃ ids, Spec.JobsDone (jobs i) (Spec.eventsBy i x.store.hist) ids := by
  obtain ⟨sched, hsc, -⟩ := C112_store N S rows jobs ms x h
  exact C110_history S jobs hj rows sched x.store hsc

end Verif

import Verif.Props.C115_Enough
import Verif.Props.C114_Every

/-!
# C115 — one request more than there are places
-/

namespace Verif

theorem openedAll_exec (N m : Nat) (hm : m ≤ N) : ∃ es, Pool.new.runExec N es = some (openedAll m) := by
  induction m with
  | zero => exact ⟨[], rfl⟩
  | succ m ih =>
    obtain ⟨es, h⟩ := ih (by omega)
    refine ⟨es ++ [.request, .pop m, .load m m, .cas m, .created m], Pool.runExec_append h ?_⟩
    simp [openedAll, Pool.runExec, Pool.allowed, Pool.step, PoolEv.req, Pool.stepReq, Pool.setReq, List.range_succ,
      show m < N by omega]

/-- all connections were in use when request `N` was polled; `j` of them have been given back. -/
def returnedAll (N j : Nat) : Pool :=
  { items := N, queue := List.range j, wakers := [N], born := N, lost := []
    reqs := (List.range (N + 1)).map fun i =>
      if i < j then ⟨.gone, false⟩ else if i < N then ⟨.holding i, false⟩ else ⟨.waiting true, false⟩ }

theorem returnedAll_exec (N j : Nat) (hj : j ≤ N) : ∃ es, Pool.new.runExec N es = some (returnedAll N j) := by
  induction j with
  | zero =>
    obtain ⟨es, h⟩ := openedAll_exec N N (Nat.le_refl N)
    refine ⟨es ++ [.request, .pop N, .load N N, .register N, .pop N, .load N N], Pool.runExec_append h ?_⟩
    simp [openedAll, returnedAll, Pool.runExec, Pool.allowed, Pool.step, PoolEv.req, Pool.stepReq, Pool.setReq,
      List.range_succ]
  | succ j ih =>
    obtain ⟨es, h⟩ := ih (by omega)
    refine ⟨es ++ [.put j], Pool.runExec_append h ?_⟩
    have hq : (returnedAll N j).reqs[j]? = some ⟨.holding j, false⟩ := by
      simp only [returnedAll, List.getElem?_map, List.getElem?_range (show j < N + 1 by omega), Option.map_some]
      rw [if_neg (by omega), if_pos (by omega)]
    have hs : (returnedAll N j).step N (.put j) = some (returnedAll N (j + 1)) := by
      unfold Pool.step
      dsimp only [PoolEv.req]
      rw [hq]
      simp only [Pool.stepReq, returnedAll, List.length_range, show j < N by omega, if_true, Pool.setReq, Option.some.injEq,
        Pool.mk.injEq, List.range_succ (n := j), true_and]
      refine ⟨set_map_range _ _ _ _ _ ?_ ?_, trivial⟩ <;> grind
    unfold Pool.runExec
    rw [hs]
    rfl

/-- **C115** needs what it asks for: for every number of places there is an execution with one request more, under an executor
that polls only what was woken, after which all connections are idle and the request is asleep, and remains so whatever
happens, unless it is cancelled. -/
theorem C115_sharp (N : Nat) : ∃ es s, Pool.new.runExec N es = some s ∧ s.reqs.length = N + 1 ∧ Spec.broken s = 0 ∧
    s.queue.length = N ∧ ∀ es' s', s.runExec N es' = some s' → .cancel N ∉ es' →
      s'.reqs[N]? = some { st := .waiting true, awake := false } := by
  obtain ⟨es, h⟩ := returnedAll_exec N N (Nat.le_refl N)
  refine ⟨es, _, h, by simp [returnedAll], ?_, by simp [returnedAll], fun es' s' h' hc => ?_⟩
  · unfold Spec.broken
    rw [List.countP_eq_zero]
    intro q hq
    simp only [returnedAll, List.mem_map] at hq
    obtain ⟨i, -, rfl⟩ := hq
    simp only [Spec.isBroken]
    grind
  · refine C40_never_woken_violated N _ s' N es' ?_ h' hc
    simp only [returnedAll, List.getElem?_map, List.getElem?_range (show N < N + 1 by omega), Option.map_some]
    rw [if_neg (by omega), if_neg (by omega)]

/-- two places, three requests. -/
example : returnedAll 2 2 = { items := 2, queue := [0, 1], wakers := [2], born := 2, lost := []
                              reqs := [⟨.gone, false⟩, ⟨.gone, false⟩, ⟨.waiting true, false⟩] } := by
  rfl

end Verif

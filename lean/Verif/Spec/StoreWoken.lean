import Verif.Spec.StoreFair

/-!
# Spec: executions in which only tasks that were woken are polled
-/

namespace Verif.Spec

/-- task `i` waits for a connection and nothing has woken it since its last poll. -/
def PoolTasks.Asleep (x : PoolTasks) (i : Nat) : Prop :=
  ∃ r reg, x.req i = some r ∧ x.pool.reqs[r]? = some { st := .waiting reg, awake := false }

/-- an execution without end, as `FairTasks`, but under an executor that polls only what was woken, and owes a poll only to
tasks that were woken. -/
structure WokenTasks (N : Nat) (S : SqlServer) (x : Nat → PoolTasks) (m : Nat → Option PoolMove) : Prop where
  idle : ∀ t, m t = none → x (t + 1) = x t
  step : ∀ t a, m t = some a → (x t).step N S a = some (x (t + 1))
  keeps : ∀ t a, m t = some a → a.keepsOn = true
  fresh : ∀ t i r k, m t = some (.poll i (.load r k)) → k = (x t).pool.items
  woken : ∀ t a, m t = some a → (x t).mayMove a = true
  /-- a task that has not ended and is not asleep makes a move at some time -/
  fair : ∀ t i, (x t).store.outcome i = none → ¬ (x t).Asleep i → ∃ t', t ≤ t' ∧ ∃ a, m t' = some a ∧ a.who = i

end Verif.Spec

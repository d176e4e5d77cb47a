import Verif.Spec.PoolTasks

/-!
# Spec: executions in which every task that stores models is polled again and again
-/

namespace Verif.Spec

/-- whose move it is. -/
def PoolMove.who : PoolMove → Nat
  | .ask i => i
  | .poll i _ => i
  | .next i => i

/-- a move with which nobody gives up waiting, and no connection fails to open. -/
def PoolMove.keepsOn : PoolMove → Bool
  | .poll _ (.cancel _) => false
  | .poll _ (.createErr _) => false
  | _ => true

/-- an execution without end: at time `t` the state is `x t`, and then there is the move `m t`, or nothing happens. -/
structure FairTasks (N : Nat) (S : SqlServer) (x : Nat → PoolTasks) (m : Nat → Option PoolMove) : Prop where
  idle : ∀ t, m t = none → x (t + 1) = x t
  step : ∀ t a, m t = some a → (x t).step N S a = some (x (t + 1))
  keeps : ∀ t a, m t = some a → a.keepsOn = true
  /-- the counter is seen as it is -/
  fresh : ∀ t i r k, m t = some (.poll i (.load r k)) → k = (x t).pool.items
  /-- a task that has not ended makes a move at some time, woken or not -/
  fair : ∀ t i, (x t).store.outcome i = none → ∃ t', t ≤ t' ∧ ∃ a, m t' = some a ∧ a.who = i

end Verif.Spec

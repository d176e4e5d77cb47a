import Verif.Spec.PoolHold

/-!
# Spec: executions in which every task is polled again and again
-/

namespace Verif.Spec

/-- whose move it is. -/
def HoldMove.who : HoldMove → Nat
  | .ask i => i
  | .poll i _ => i
  | .next i => i
  | .quit i => i

/-- an execution without end: at time `t` the state is `x t`, and then there is the move `m t`, or nothing happens. -/
structure FairRun (N : Nat) (x : Nat → PoolHold) (m : Nat → Option HoldMove) : Prop where
  idle : ∀ t, m t = none → x (t + 1) = x t
  step : ∀ t a, m t = some a → (x t).step N a = some (x (t + 1))
  /-- nobody gives up, and no connection fails -/
  keeps : ∀ t a, m t = some a → a.keepsOn = true
  /-- the counter is seen as it is -/
  fresh : ∀ t i r k, m t = some (.poll i (.load r k)) → k = (x t).pool.items
  /-- a task that has not ended makes a move at some time, woken or not -/
  fair : ∀ t i, ¬((x t).task i).ended → ∃ t', t ≤ t' ∧ ∃ a, m t' = some a ∧ a.who = i

end Verif.Spec

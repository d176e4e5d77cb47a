import Verif.Model.Pool

/-!
# Spec: executions of the pool without end in which requests are served fairly by everybody but the pool
-/

namespace Verif.Spec

/-- an execution of the pool from the state `s 0`: at time `t` the step `m t` is made. -/
structure PoolForever (N : Nat) (s : Nat → Pool) (m : Nat → PoolEv) : Prop where
  start : ∃ es, Pool.new.run N es = some (s 0)
  step : ∀ t, (s t).step N (m t) = some (s (t + 1))
  /-- nobody gives up, and no connection fails -/
  keeps : ∀ t r, m t ≠ .cancel r ∧ m t ≠ .createErr r
  /-- the counter is seen as it is -/
  fresh : ∀ t r k, m t = .load r k → k = (s t).items
  /-- who has a connection gives it back -/
  back : ∀ t r c w, (s t).reqs[r]? = some ⟨.holding c, w⟩ → ∃ t', t ≤ t' ∧ m t' = .put r

/-- the request never gets a connection. -/
def Starved (s : Nat → Pool) (r : Nat) : Prop := ∀ t c w, (s t).reqs[r]? ≠ some ⟨.holding c, w⟩

end Verif.Spec

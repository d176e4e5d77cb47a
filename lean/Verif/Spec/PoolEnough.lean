import Verif.Proofs.Pool

/-!
# Spec: pools that are large enough for the requests at a time
-/

namespace Verif.Spec

/-- a request that has not ended: it is waiting, being served or has a connection. -/
def isOut (q : Req) : Bool :=
  match q.st with
  | .gone | .failed | .dropped => false
  | _ => true

def outstanding (s : Pool) : Nat := s.reqs.countP isOut

/-- there is a place for every request that has not ended. -/
def HasRoom (N : Nat) (s : Pool) : Prop := outstanding s + broken s ≤ N

/-- in all states of this execution. -/
def FitsAll (N : Nat) : Pool → List PoolEv → Prop
  | s, [] => HasRoom N s
  | s, e :: es => HasRoom N s ∧ ∀ s', s.step N e = some s' → FitsAll N s' es

/-- an execution without end under an executor that polls only what was woken: at time `t` the step `m t` is made, or
nothing happens. -/
structure EnoughRun (N : Nat) (s : Nat → Pool) (m : Nat → Option PoolEv) : Prop where
  start : s 0 = Pool.new
  idle : ∀ t, m t = none → s (t + 1) = s t
  step : ∀ t e, m t = some e → (s t).step N e = some (s (t + 1))
  woken : ∀ t e, m t = some e → (s t).allowed e = true
  /-- there are never more requests than places left -/
  fits : ∀ t, HasRoom N (s t)
  /-- the counter is seen as it is -/
  fresh : ∀ t r k, m t = some (.load r k) → k = (s t).items
  /-- a request that was woken is polled, and a poll goes on -/
  polled : ∀ t r q, (s t).reqs[r]? = some q →
    ((∃ reg, q.st = .waiting reg) ∧ q.awake = true ∨ (∃ reg, q.st = .empty reg) ∨ ∃ reg k, q.st = .loaded reg k) →
    ∃ t' e, t ≤ t' ∧ m t' = some e ∧ e ≠ .request ∧ e.req = r

/-- at some time from `t` on, request `r` has a connection or one is being opened for it. -/
def GetsServed (s : Nat → Pool) (r t : Nat) : Prop :=
  ∃ t', t ≤ t' ∧ ∃ q, (s t').reqs[r]? = some q ∧ (q.st = .creating ∨ ∃ c, q.st = .holding c)

end Verif.Spec

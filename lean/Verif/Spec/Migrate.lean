import Verif.Model.Migrator

/-! # Spec: what migrating should do -/

namespace Verif.Spec

/-- the place of a version in the order of versions. -/
def rank (v : Version) : Nat := v.major.toNat * 2 ^ 32 + v.minor.toNat * 2 ^ 16 + v.patch.toNat

/-- all migrations in declaration order. -/
def declared (ms : List MigList) : List MigKey := ms.flatMap fun m => m.names.map fun n => (m.version, n)

/-- the migrator considers `k` applied. -/
def isApplied (s : MigState) (k : MigKey) : Bool := decide (k.2 ∈ s.applied k.1)

/-- up to the target, everything without one. -/
def upTo (target : Option Version) (k : MigKey) : Bool :=
  match target with
  | some v => decide (rank k.1 ≤ rank v)
  | none => true

/-- the effects of applying and of reverting one migration. -/
def applying (k : MigKey) : List MigEff := [.up k, .conn, .insert k]
def reverting (k : MigKey) : List MigEff := [.down k, .conn, .delete k]

/-- do the effects one after the other until the first that does not succeed or the process dies. -/
def perform : List MigEff → List MigOut → List (MigEff × MigOut) × Out MigErr Unit
  | [], _ => ([], .ok ())
  | _ :: _, [] => ([], .err .died)
  | e :: es, o :: os =>
    if o = .ok then ((e, .ok) :: (perform es os).1, (perform es os).2) else ([(e, o)], .err .failed)

/-- the records say what is in effect. -/
def agree (s : MigState) : Prop := ∀ k, k ∈ s.db ↔ k ∈ s.schema

/-- … and so does the migrator's own view. -/
def inSync (s : MigState) : Prop := ∀ k, isApplied s k = true ↔ k ∈ s.db

end Verif.Spec

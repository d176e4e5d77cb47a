import Verif.Model.MigratorWire
import Verif.Spec.Migrate

/-! # Spec: the statements that migrating amounts to -/

namespace Verif.Spec

/-- execute the statements one after the other, up to the first that fails. -/
def execAll : List Str → M Unit
  | [] => pure ()
  | sql :: sqls => do
    let _ ← executeQuery sql
    execAll sqls

/-- the migrator's view. -/
def Applied (a : Version → List Str) (k : MigKey) : Prop := k.2 ∈ a k.1

instance (a : Version → List Str) (k : MigKey) : Decidable (Applied a k) :=
  inferInstanceAs (Decidable (_ ∈ _))

/-- what is to be applied to get to the target, in order. -/
def pendingUp (t : Option Version) (ms : List MigList) (a : Version → List Str) : List MigKey :=
  (declared ms).filter fun k => upTo t k && !decide (Applied a k)

/-- what is to be reverted to get down to the target, in order. -/
def pendingDown (t : Version) (ms : List MigList) (a : Version → List Str) : List MigKey :=
  ((declared ms).filter fun k => decide (rank t < rank k.1) && decide (Applied a k)).reverse

/-- per migration: its own statement, then the record. -/
def upStatements (upSql : MigKey → Str) (ks : List MigKey) : List Str :=
  ks.flatMap fun k => [upSql k, insertSql k]

def downStatements (downSql : MigKey → Str) (ks : List MigKey) : List Str :=
  ks.flatMap fun k => [downSql k, deleteSql k]

end Verif.Spec

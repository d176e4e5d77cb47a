import Verif.Spec.Response

/-!
# Spec: a server that answers every command

The packets a server (with `CLIENT_DEPRECATE_EOF`) sends in answer to one command.
-/

namespace Verif.Spec

/-- one packet that says how a command went: header OK or ERR, whatever follows. -/
def Verdict (ps : List Bytes) : Prop := ∃ b t, ps = [b :: t] ∧ (b = 0x00 ∨ b = 0xFF)

/-- a result set with at least one column. -/
def Rows (ps : List Bytes) : Prop :=
  ∃ descs rows status warnings, descs ≠ [] ∧ descs.length < 2 ^ 56 ∧ (∀ p ∈ rows, IsRow p) ∧
    ps = resultSet descs rows status warnings

/-- the answer to COM_STMT_PREPARE. -/
def PrepareAnswer (ps : List Bytes) : Prop :=
  (∃ t, ps = [0xFF :: t]) ∨
  ∃ (id : UInt32) (columns params warnings : UInt16) (defs : List Bytes),
    defs.length = params.toNat + columns.toNat ∧
    ps = stmtOk id.toNat columns.toNat params.toNat warnings.toNat :: defs

end Verif.Spec

import Verif.Spec.Streams
import Verif.Model.Query

/-!
# Spec: a program on a target with addresses of 32 bits

When a result counts as the same.
-/

namespace Verif.Spec

/-- a packet fits into the memory of such a target. -/
abbrev Short (s : Bytes) : Prop := s.length < 2 ^ 32

/-- every packet that can be read from the stream, now or later, fits. -/
def Tame (c : Conn) : Prop := ∀ c1 p c2, c1.rx <:+ c.rx → Took c1 [p] c2 → Short p

/-- `s` begins with a length that 32 bits cannot express. -/
def Wide (s : Bytes) : Prop := ∃ n r, 2 ^ 32 ≤ n ∧ n < 2 ^ 64 ∧ s = 0xFE :: le 8 n ++ r

/-- nothing in `p` looks like a length that 32 bits cannot express, and `p` does not begin with a number of columns that
there is no memory for. -/
structure Usual (p : Bytes) : Prop where
  lengths : ∀ a s, p = a ++ s → ¬ Wide s
  columns : ∀ n a s, p = a ++ s → IntForm n a → n ≤ 41297762

/-- every packet that can be read from the stream, now or later, is of this kind. -/
def UsualStream (c : Conn) : Prop := ∀ c1 p c2, c1.rx <:+ c.rx → Took c1 [p] c2 → Usual p

/-- the same, but for texts that one of them did not find. -/
structure OkAlike (p p' : OkPacket) : Prop where
  affectedRows : p'.affectedRows = p.affectedRows
  lastInsertId : p'.lastInsertId = p.lastInsertId
  status : p'.status = p.status
  warnings : p'.warnings = p.warnings
  message : p.message.isSome = true → p'.message = p.message
  sessionStateInfo : p.message.isSome = true → p.sessionStateInfo.isSome = true → p'.sessionStateInfo = p.sessionStateInfo

/-- the same columns, and at the same point: before the end, or behind it. -/
structure SetAlike (rs rs' : RSet) : Prop where
  columns : rs'.columns = rs.columns
  okPacket : (rs.okPacket = none ∧ rs'.okPacket = none) ∨
    ∃ p p', rs.okPacket = some p ∧ rs'.okPacket = some p' ∧ OkAlike p p'

end Verif.Spec

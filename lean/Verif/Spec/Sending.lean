import Verif.Spec.Streams

/-!
# Spec: what precedes an answer

Before a command is sent, what is left of an earlier result is passed over; then the command has to get through the
calls that write it.
-/

namespace Verif.Spec

/-- a packet that is neither empty nor the end of the rows: passed over unseen. -/
def Passed (caps : UInt32) (p : Bytes) : Prop := p ≠ [] ∧ ¬ IsEnd caps p

/-- `c0` is `c` with what was left of an earlier result out of the way. -/
def Idle (c c0 : Conn) : Prop :=
  (c.pendingResult = false ∧ c0 = c) ∨
  (c.pendingResult = true ∧ ∃ left last c1, Took c (left ++ [last]) c1 ∧
    (∀ p ∈ left, Passed c.data.capabilities p) ∧ IsEnd c.data.capabilities last ∧
    (∃ status warnings message, EndForm last status warnings message) ∧
    c0 = { c1 with pendingResult := false })

/-- the number of calls that write a packet: header and content of each frame, an empty frame has no content. -/
def writesOf (p : Bytes) : Nat :=
  if p.length % maxFrame = 0 then 2 * frameCount p - 1 else 2 * frameCount p

/-- none of the next `n` calls that write fails. -/
def Clear (n : Nat) (c : Conn) : Prop := ∀ f ∈ c.wfaults.take n, f = none

/-- the command `cmd` gets through; `c'` is `c` after that. -/
def Wrote (c : Conn) (cmd : Bytes) (c' : Conn) : Prop :=
  Clear (writesOf cmd) c ∧ c' = { c with
    tx := c.tx ++ frames 0 cmd
    wfaults := c.wfaults.drop (writesOf cmd)
    seqId := UInt8.ofNat (frameCount cmd) }

/-- commands one after the other. -/
def WroteAll (c : Conn) : List Bytes → Conn → Prop
  | [], c' => c' = c
  | cmd :: cmds, c' => ∃ c1, Wrote c cmd c1 ∧ WroteAll c1 cmds c'

end Verif.Spec

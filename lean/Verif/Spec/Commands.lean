import Verif.Spec.Packet

/-!
# Spec: what a server reads from the stream of a client

One command after the other, each a packet that begins with sequence id 0, as far as they are complete.
-/

namespace Verif.Spec

/-- the commands, `n` bounding their number. -/
def readCommandsN : Nat → Bytes → List Bytes
  | 0, _ => []
  | n + 1, s =>
    match receive s.length 0 s with
    | some (p, _, r) => p :: readCommandsN n r
    | none => []

/-- all commands (each is of at least one byte). -/
def readCommands (s : Bytes) : List Bytes := readCommandsN s.length s

end Verif.Spec

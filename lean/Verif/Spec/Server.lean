import Verif.Spec.Value
import Verif.Spec.Response

/-!
# Spec: a server's side of long data

COM_STMT_SEND_LONG_DATA: `0x18`, statement id (4), parameter index (2), data up to the end of the
packet; there is no answer; the data of several such commands for one parameter is appended.
-/

namespace Verif.Spec

/-- data received so far, by statement and parameter. -/
abbrev LongData := Nat → Nat → Option Bytes

/-- the server receives one packet of long data; `none` = not such a packet. -/
def longStep (st : LongData) (p : Bytes) : Option LongData := do
  let (cmd, bs) ← readInt 1 p
  if cmd ≠ 0x18 then none
  let (id, bs) ← readInt 4 bs
  let (i, data) ← readInt 2 bs
  return fun id' i' => if id' = id ∧ i' = i then some ((st id i).getD [] ++ data) else st id' i'

def longRun (st : LongData) : List Bytes → Option LongData
  | [] => some st
  | p :: ps => do
    let st' ← longStep st p
    longRun st' ps

/-- commands on the wire: each starts with sequence number 0. -/
def commands (cmds : List Bytes) : Bytes := cmds.flatMap (frames 0)

end Verif.Spec

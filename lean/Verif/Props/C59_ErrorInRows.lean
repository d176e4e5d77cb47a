import Verif.Props.C56_Dialog
import Verif.Props.C14_ServerErrors

/-!
# C59 — an error the server reports while it sends rows reaches the caller

A server may end a result set with an ERR packet instead of the terminator (the query was killed, a
row could not be computed).  False for the code: `next` and `cleanup` do not look for the marker 0xFF.
-/

namespace Verif

/-- an ERR packet is not taken for the end of a result set. -/
theorem isLast_err (caps : UInt32) (code : Nat) (st : Option Bytes) (msg : Str) :
    isLast caps (Spec.errPacket code st msg) = .ok false := by
  obtain ⟨t, e⟩ := errPacket_head code st msg
  rw [e]
  unfold isLast
  dsimp only
  split <;> rfl

/-- What holds: the rows are never reported as complete when the server has sent an error.  For every
error, every row type, every capabilities: `next` does not answer "no more rows", the result set stays
pending, and exactly the packet is consumed.
Missing: the error itself (`C59_reported_violated`) and the use of the connection afterwards
(`C59_stuck_violated`). -/
theorem C59_not_the_end_partial {R : Type} (rd : RowReader R) (rs : RSet) (c : Conn) (code : Nat)
    (st : Option Bytes) (msg : Str) (r : List Rx) (hrs : rs.okPacket = none)
    (h : c.rx = rxOf (Spec.frames c.seqId (Spec.errPacket code st msg)) ++ r) :
    (∀ rs', (rs.next rd c).1 ≠ .ok (rs', none)) ∧
    (rs.next rd c).2 = { c with
      rx := r
      seqId := c.seqId + UInt8.ofNat (Spec.frameCount (Spec.errPacket code st msg)) } := by
  unfold RSet.next
  rw [hrs, if_neg (by simp), SM.bind_of_ok (readPacket_frames _ r c h), SM.get_bind_apply,
    isLast_err, SM.ofOut_ok_bind_apply, if_neg (by simp)]
  cases h1 : rd.row (Spec.errPacket code st msg) rs.columns with
  | ok vs =>
    unfold liftP
    rw [Out.mapErr_ok, SM.ofOut_ok_bind_apply]
    unfold liftParse
    cases h2 : rd.build rs.columns vs with
    | ok x => rw [Out.mapErr_ok, SM.ofOut_ok_bind_apply]; exact ⟨by simp, rfl⟩
    | err e => exact ⟨fun _ h => (by cases h), rfl⟩
    | panic => exact ⟨fun _ h => (by cases h), rfl⟩
  | err e => exact ⟨fun _ h => (by cases h), rfl⟩
  | panic => exact ⟨fun _ h => (by cases h), rfl⟩

/-- **C59 is false**, for every error: whatever the server reports while rows are read, `next` does not
return it (nor any other server error). -/
theorem C59_reported_violated {R : Type} (rd : RowReader R) (rs : RSet) (c : Conn) (code : Nat)
    (st : Option Bytes) (msg : Str) (r : List Rx) (hrs : rs.okPacket = none)
    (h : c.rx = rxOf (Spec.frames c.seqId (Spec.errPacket code st msg)) ++ r) :
    ∀ e, (rs.next rd c).1 ≠ .err (.server e) := by
  intro e
  unfold RSet.next
  rw [hrs, if_neg (by simp), SM.bind_of_ok (readPacket_frames _ r c h), SM.get_bind_apply,
    isLast_err, SM.ofOut_ok_bind_apply, if_neg (by simp)]
  cases h1 : rd.row (Spec.errPacket code st msg) rs.columns with
  | ok vs =>
    unfold liftP
    rw [Out.mapErr_ok, SM.ofOut_ok_bind_apply]
    unfold liftParse
    cases h2 : rd.build rs.columns vs with
    | ok x => rw [Out.mapErr_ok, SM.ofOut_ok_bind_apply]; intro h; cases h
    | err e => intro h; cases h
    | panic => intro h; cases h
  | err e => intro h; cases h
  | panic => intro h; cases h

/-- a result set with one text column. -/
def C59.col : Column :=
  { orgName := ['s'], name := ['s'], orgTable := ['t'], table := ['t'], type := .varString, flags := 0 }

/-- "Query execution was interrupted" (1317, 70100). -/
def C59.killed : Bytes := Spec.errPacket 1317 (some [0x37, 0x30, 0x31, 0x30, 0x30]) "killed".toList

/-- In the text protocol the error even becomes a row: a string column of the made-up row is empty; in
the binary protocol the bytes of the message are decoded as values (the text `:` and what follows). -/
theorem C59_row_from_error_violated :
    (RSet.next (textReader C56.noFloats mkPlain) { columns := [C59.col], okPacket := none }
        { exConn [] with rx := rxOf (Spec.frames 1 C59.killed), pendingResult := true }).1
      = .ok ({ columns := [C59.col], okPacket := none }, some [.bytes []]) ∧
    (RSet.next (binReader mkPlain)
        { columns := [{ C59.col with type := .tiny }], okPacket := none }
        { exConn [] with rx := rxOf (Spec.frames 1 (Spec.errPacket 1024 (some [0x48, 0x59, 0x30, 0x30, 0x30])
            "disk".toList)), pendingResult := true }).1
      = .ok ({ columns := [{ C59.col with type := .tiny }], okPacket := none }, some [.tiny 4]) := by
  decide +kernel

/-- After the error the server waits for a command; the client waits for more rows: the next command
is never sent, because skipping the rest of the result comes first.  For every error and every command:
nothing is written, and the call ends only when the stream does. -/
theorem C59_stuck_violated (c : Conn) (code : Nat) (st : Option Bytes) (msg : Str) (cmd : Command)
    (data : Bytes) (hp : c.pendingResult = true)
    (h : c.rx = rxOf (Spec.frames c.seqId (Spec.errPacket code st msg))) :
    (executeCommand cmd data c).1 = .err (.protocol (.io .unexpectedEof)) ∧
    (executeCommand cmd data c).2.tx = c.tx ∧ (executeCommand cmd data c).2.pendingResult = true := by
  have h' : c.rx = rxOf (Spec.frames c.seqId (Spec.errPacket code st msg)) ++ [] := by
    rw [h, List.append_nil]
  have hlen : ∃ n, c.rx.length = n + 1 := by
    have h1 : 0 < c.rx.length := by
      rw [h]
      obtain ⟨t, e⟩ := errPacket_head code st msg
      rw [e]
      unfold Spec.frames
      split <;> simp [rxOf] <;> omega
    exact ⟨c.rx.length - 1, by omega⟩
  obtain ⟨n, hn⟩ := hlen
  let c1 : Conn := { c with
    rx := []
    seqId := c.seqId + UInt8.ofNat (Spec.frameCount (Spec.errPacket code st msg)) }
  have hread : readPacket c1 = (.err (.protocol (.io .unexpectedEof)), c1) := rfl
  have hcl : cleanup c = (.err (.protocol (.io .unexpectedEof)), c1) := by
    unfold cleanup
    rw [hp, if_pos rfl, hn]
    refine SM.bind_of_err ?_
    unfold cleanupLoop
    rw [SM.bind_of_ok (readPacket_frames _ [] c h'), SM.get_bind_apply, isLast_err,
      SM.ofOut_ok_bind_apply, if_neg (by simp)]
    unfold cleanupLoop
    exact SM.bind_of_err hread
  have := SM.bind_of_err (f := fun _ => (do
    SM.modify fun c => { c with seqId := 0 }
    writePacket (cmd.toByte :: data) : M Unit)) hcl
  unfold executeCommand
  rw [this]
  exact ⟨rfl, rfl, hp⟩

end Verif

import Verif.Proofs.ResultSet
import Verif.Proofs.Example

/-!
# C14 — server errors are reported verbatim and leave the connection usable

In each theorem the server's answer to the command is an ERR packet with any code, any SQL state of
five bytes and any message (`Spec.errPacket`); the state is present exactly if protocol 4.1 is in
use.  The call returns that error and nothing else, exactly the packet has been consumed, the
command is the only thing that was written, and no result is pending.
-/

namespace Verif

variable (c : Conn) (r : List Rx) (code : UInt16) (state msg : Str)

/-- the server's packet, for the capabilities in use. -/
abbrev errAnswer (c : Conn) (code : UInt16) (state msg : Str) : Bytes :=
  Spec.errPacket code.toNat (stateOf (hasFlag32 c.data.capabilities Cap.PROTOCOL_41) (utf8 state)) msg

/-- the error the caller gets. -/
abbrev errSeen (c : Conn) (code : UInt16) (state msg : Str) : Error :=
  .server (.error code (stateOf (hasFlag32 c.data.capabilities Cap.PROTOCOL_41) (utf8 state)) msg)

theorem C14_execute_query (sql : Str) (hp : c.pendingResult = false) (hw : c.wfaults = [])
    (hs : (utf8 state).length = 5)
    (hc : code ≠ 0xFFFF ∨ hasFlag32 c.data.capabilities Cap.PROGRESS_OBSOLETE = false)
    (h : c.rx = rxOf (Spec.frames (UInt8.ofNat (Spec.frameCount (0x03 :: utf8 sql)))
      (errAnswer c code state msg)) ++ r) :
    ∃ q, executeQuery sql c = (.err (errSeen c code state msg), { c with
      rx := r, tx := c.tx ++ Spec.frames 0 (0x03 :: utf8 sql), seqId := q }) := by
  unfold executeQuery
  rw [SM.bind_of_ok (executeCommand_clean .query (utf8 sql) c hp hw)]
  obtain ⟨q, h1⟩ := readResponse_err { c with
    tx := c.tx ++ Spec.frames 0 (Command.query.toByte :: utf8 sql)
    seqId := UInt8.ofNat (Spec.frameCount (Command.query.toByte :: utf8 sql)) } r code state msg hs hc h
  rw [SM.bind_of_ok h1]
  exact ⟨q, rfl⟩

theorem C14_query (sql : Str) (hp : c.pendingResult = false) (hw : c.wfaults = [])
    (hs : (utf8 state).length = 5)
    (hc : code ≠ 0xFFFF ∨ hasFlag32 c.data.capabilities Cap.PROGRESS_OBSOLETE = false)
    (h : c.rx = rxOf (Spec.frames (UInt8.ofNat (Spec.frameCount (0x03 :: utf8 sql)))
      (errAnswer c code state msg)) ++ r) :
    ∃ q, query sql c = (.err (errSeen c code state msg), { c with
      rx := r, tx := c.tx ++ Spec.frames 0 (0x03 :: utf8 sql), seqId := q }) := by
  unfold query
  rw [SM.bind_of_ok (executeCommand_clean .query (utf8 sql) c hp hw)]
  have h1 := read_err_head { c with tx := c.tx ++ Spec.frames 0 (Command.query.toByte :: utf8 sql) }
    (UInt8.ofNat (Spec.frameCount (Command.query.toByte :: utf8 sql))) r [] code state msg hs hc
  refine ⟨_, Eq.trans ?_ h1⟩
  congr 1
  simp only [Conn.feed, Spec.framesAll, List.append_nil]
  exact congrArg (fun x => { c with
    rx := x
    tx := c.tx ++ Spec.frames 0 (Command.query.toByte :: utf8 sql)
    seqId := UInt8.ofNat (Spec.frameCount (Command.query.toByte :: utf8 sql)) }) h

theorem C14_prepare (sql : Str) (hp : c.pendingResult = false) (hw : c.wfaults = [])
    (hs : (utf8 state).length = 5)
    (hc : code ≠ 0xFFFF ∨ hasFlag32 c.data.capabilities Cap.PROGRESS_OBSOLETE = false)
    (h : c.rx = rxOf (Spec.frames (UInt8.ofNat (Spec.frameCount (0x16 :: utf8 sql)))
      (errAnswer c code state msg)) ++ r) :
    ∃ q, prepareStatement sql c = (.err (errSeen c code state msg), { c with
      rx := r, tx := c.tx ++ Spec.frames 0 (0x16 :: utf8 sql), seqId := q }) := by
  unfold prepareStatement
  rw [SM.bind_of_ok (executeCommand_clean .stmtPrepare (utf8 sql) c hp hw)]
  have h1 := readPacket_frames (errAnswer c code state msg) r { c with
    tx := c.tx ++ Spec.frames 0 (Command.stmtPrepare.toByte :: utf8 sql)
    seqId := UInt8.ofNat (Spec.frameCount (Command.stmtPrepare.toByte :: utf8 sql)) } h
  rw [SM.bind_of_ok h1, SM.get_bind_apply]
  have h2 := errPacket_spec c.data.capabilities code state msg hs hc
  obtain ⟨t, e⟩ := errPacket_head code.toNat
    (stateOf (hasFlag32 c.data.capabilities Cap.PROTOCOL_41) (utf8 state)) msg
  rw [e] at h2
  rw [errAnswer, e]
  dsimp only
  rw [if_neg (by decide), if_pos rfl, h2]
  exact ⟨_, rfl⟩

theorem C14_statement_execute (p : Prepared) (values : List Value) (req : ExecRequest)
    (hp : c.pendingResult = false) (hw : c.wfaults = []) (hn : values.length = p.params)
    (hreq : ExecRequest.new (ε := Error) p.id values = .ok req)
    (hs : (utf8 state).length = 5)
    (hc : code ≠ 0xFFFF ∨ hasFlag32 c.data.capabilities Cap.PROGRESS_OBSOLETE = false)
    (h : c.rx = rxOf (Spec.frames (UInt8.ofNat (Spec.frameCount req.serialize))
      (errAnswer c code state msg)) ++ r) :
    ∃ q cmds, p.execute values c = (.err (errSeen c code state msg), { c with
      rx := r, tx := c.tx ++ Spec.commands cmds, seqId := q }) := by
  obtain ⟨req', h3, h4⟩ := sendExecute_clean p.id values c hp hw
  rw [hreq] at h3
  injection h3 with h3
  subst h3
  unfold Prepared.execute
  rw [if_neg (by simp [hn]), SM.bind_of_ok h4]
  obtain ⟨q, h1⟩ := readResponse_err { c with
    tx := c.tx ++ Spec.commands (execCmds p.id values req)
    seqId := UInt8.ofNat (Spec.frameCount req.serialize) } r code state msg hs hc h
  rw [SM.bind_of_ok h1]
  exact ⟨q, _, rfl⟩

theorem C14_statement_query (p : Prepared) (values : List Value) (req : ExecRequest)
    (hp : c.pendingResult = false) (hw : c.wfaults = []) (hn : values.length = p.params)
    (hreq : ExecRequest.new (ε := Error) p.id values = .ok req)
    (hs : (utf8 state).length = 5)
    (hc : code ≠ 0xFFFF ∨ hasFlag32 c.data.capabilities Cap.PROGRESS_OBSOLETE = false)
    (h : c.rx = rxOf (Spec.frames (UInt8.ofNat (Spec.frameCount req.serialize))
      (errAnswer c code state msg)) ++ r) :
    ∃ q cmds, p.query values c = (.err (errSeen c code state msg), { c with
      rx := r, tx := c.tx ++ Spec.commands cmds, seqId := q }) := by
  obtain ⟨req', h3, h4⟩ := sendExecute_clean p.id values c hp hw
  rw [hreq] at h3
  injection h3 with h3
  subst h3
  unfold Prepared.query
  rw [if_neg (by simp [hn]), SM.bind_of_ok h4]
  have h1 := read_err_head { c with tx := c.tx ++ Spec.commands (execCmds p.id values req) }
    (UInt8.ofNat (Spec.frameCount req.serialize)) r [] code state msg hs hc
  refine ⟨_, _, Eq.trans ?_ h1⟩
  congr 1
  simp only [Conn.feed, Spec.framesAll, List.append_nil]
  exact congrArg (fun x => { c with
    rx := x
    tx := c.tx ++ Spec.commands (execCmds p.id values req)
    seqId := UInt8.ofNat (Spec.frameCount req.serialize) }) h

-- "Table 't' doesn't exist"
example : runP (ErrPacket.deserialize 0x0100_8200)
    [0xFF, 0x7A, 0x04, 0x23, 0x34, 0x32, 0x53, 0x30, 0x32, 0x54, 0x27, 0xC3, 0xA9]
    = .ok (.error 1146 (some [0x34, 0x32, 0x53, 0x30, 0x32]) ['T', '\'', 'é']) := by decide +kernel

-- the five calls answered by error 1146
example :
    let err : Bytes := [12, 0, 0, 1, 0xFF, 0x7A, 0x04, 0x23, 0x34, 0x32, 0x53, 0x30, 0x32, 0x54, 0x27, 0x65, 9]
    let e : Error := .server (.error 1146 (some [0x34, 0x32, 0x53, 0x30, 0x32]) ['T', '\'', 'e'])
    let p : Prepared := { id := 7, params := 1 }
    let q := "drop table t".toList
    ((executeQuery q (exConn err)).1, (executeQuery q (exConn err)).2.rx) = (.err e, [.byte 9]) ∧
    ((query q (exConn err)).1.map' (fun _ => ()), (query q (exConn err)).2.rx) = (.err e, [.byte 9]) ∧
    ((prepareStatement q (exConn err)).1.map' (fun _ => ()), (prepareStatement q (exConn err)).2.rx)
      = (.err e, [.byte 9]) ∧
    ((p.execute [.int 5] (exConn err)).1, (p.execute [.int 5] (exConn err)).2.rx) = (.err e, [.byte 9]) ∧
    ((p.query [.int 5] (exConn err)).1.map' (fun _ => ()), (p.query [.int 5] (exConn err)).2.rx)
      = (.err e, [.byte 9]) := by decide +kernel

end Verif

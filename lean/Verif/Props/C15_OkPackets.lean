import Verif.Proofs.ResultSet
import Verif.Proofs.Example
import Verif.Proofs.Handshake

/-!
# C15 — success responses are reported verbatim

`okOf` is the summary with exactly the given fields; status bits without a name in the connector
(only bit 2 of the sixteen) cannot be represented.
-/

namespace Verif

variable (c : Conn) (r : List Rx) (a l : UInt64) (status warnings : UInt16) (msg : Str)

theorem C15_execute_query (sql : Str) (hp : c.pendingResult = false) (hw : c.wfaults = [])
    (hm : (utf8 msg).length < 2 ^ 64)
    (hs : hasFlag32 c.data.capabilities Cap.SESSION_TRACK = false)
    (h : c.rx = rxOf (Spec.frames (UInt8.ofNat (Spec.frameCount (0x03 :: utf8 sql)))
      (Spec.okPacket a.toNat l.toNat status.toNat warnings.toNat msg)) ++ r) :
    ∃ q, executeQuery sql c = (.ok (okOf a l status warnings msg), { c with
      rx := r, tx := c.tx ++ Spec.frames 0 (0x03 :: utf8 sql), seqId := q }) := by
  unfold executeQuery
  rw [SM.bind_of_ok (executeCommand_clean .query (utf8 sql) c hp hw)]
  obtain ⟨q, h1⟩ := readResponse_ok { c with
    tx := c.tx ++ Spec.frames 0 (Command.query.toByte :: utf8 sql)
    seqId := UInt8.ofNat (Spec.frameCount (Command.query.toByte :: utf8 sql)) } r a l status
      warnings msg hm (Or.inl hs) h
  rw [SM.bind_of_ok h1]
  exact ⟨q, rfl⟩

theorem C15_statement_execute (p : Prepared) (values : List Value) (req : ExecRequest)
    (hp : c.pendingResult = false) (hw : c.wfaults = []) (hn : values.length = p.params)
    (hreq : ExecRequest.new (ε := Error) p.id values = .ok req)
    (hm : (utf8 msg).length < 2 ^ 64)
    (hs : hasFlag32 c.data.capabilities Cap.SESSION_TRACK = false)
    (h : c.rx = rxOf (Spec.frames (UInt8.ofNat (Spec.frameCount req.serialize))
      (Spec.okPacket a.toNat l.toNat status.toNat warnings.toNat msg)) ++ r) :
    ∃ q cmds, p.execute values c = (.ok (okOf a l status warnings msg), { c with
      rx := r, tx := c.tx ++ Spec.commands cmds, seqId := q }) := by
  obtain ⟨req', h3, h4⟩ := sendExecute_clean p.id values c hp hw
  rw [hreq] at h3
  injection h3 with h3
  subst h3
  unfold Prepared.execute
  rw [if_neg (by simp [hn]), SM.bind_of_ok h4]
  obtain ⟨q, h1⟩ := readResponse_ok { c with
    tx := c.tx ++ Spec.commands (execCmds p.id values req)
    seqId := UInt8.ofNat (Spec.frameCount req.serialize) } r a l status
      warnings msg hm (Or.inl hs) h
  rw [SM.bind_of_ok h1]
  exact ⟨q, _, rfl⟩

/-- A query without rows: an empty result set that reports the summary. -/
theorem C15_query {R : Type} (rd : RowReader R) (sql : Str) (hp : c.pendingResult = false)
    (hw : c.wfaults = []) (hm : (utf8 msg).length < 2 ^ 64)
    (hs : hasFlag32 c.data.capabilities Cap.SESSION_TRACK = false)
    (h : c.rx = rxOf (Spec.frames (UInt8.ofNat (Spec.frameCount (0x03 :: utf8 sql)))
      (Spec.okPacket a.toNat l.toNat status.toNat warnings.toNat msg)) ++ r) :
    ∃ q rs c', query sql c = (.ok rs, c') ∧
      c' = { c with rx := r, tx := c.tx ++ Spec.frames 0 (0x03 :: utf8 sql), seqId := q } ∧
      rs.next rd c' = (.ok (rs, none), c') ∧
      rs.finish rd c' = (.ok (okOf a l status warnings msg), c') := by
  unfold query
  rw [SM.bind_of_ok (executeCommand_clean .query (utf8 sql) c hp hw)]
  have h1 := read_ok_head { c with tx := c.tx ++ Spec.frames 0 (Command.query.toByte :: utf8 sql) }
    (UInt8.ofNat (Spec.frameCount (Command.query.toByte :: utf8 sql))) r [] a l status warnings msg
    hm (Or.inl hs)
  refine ⟨_, _, _, Eq.trans ?_ h1, rfl, next_done rd _ _ (by simp), rfl⟩
  congr 1
  simp only [Conn.feed, Spec.framesAll, List.append_nil]
  exact congrArg (fun x => { c with
    rx := x
    tx := c.tx ++ Spec.frames 0 (Command.query.toByte :: utf8 sql)
    seqId := UInt8.ofNat (Spec.frameCount (Command.query.toByte :: utf8 sql)) }) h

/-- With session tracking (never requested by this connector, C55) the state information is
decoded as well. -/
theorem C15_session_state (caps : UInt32) (info : Str)
    (hm : (utf8 msg).length < 2 ^ 64) (hi : (utf8 info).length < 2 ^ 64)
    (hs : caps.toNat.testBit 23 = true)
    (hs2 : status.toNat.testBit 14 = true) :
    runP (OkPacket.readOk caps)
        (Spec.okPacketTracked a.toNat l.toNat status.toNat warnings.toNat msg info)
      = .ok { okOf a l status warnings msg with
              sessionStateInfo := if info = [] then none else some info } :=
  readOk_tracked caps a l status warnings msg info hm hi (hasFlag32_eq caps Cap.SESSION_TRACK 23 rfl ▸ hs) (by
    have h : (statusTruncate status).toNat.testBit 14 = true := by
      unfold statusTruncate
      rw [UInt16.toNat_and, Nat.testBit_and, hs2]
      decide
    rw [hasFlag16_eq _ _ 14 rfl]
    exact h)

/-- Every status bit but the unassigned bit 2 is kept. -/
theorem C15_status_bits (i : Nat) (hi : i < 16) (h2 : i ≠ 2) :
    (statusTruncate status).toNat.testBit i = status.toNat.testBit i := by
  unfold statusTruncate
  rw [UInt16.toNat_and, Nat.testBit_and]
  have : Status.ALL.toNat.testBit i = true := by
    have : ∀ i < 16, i ≠ 2 → Status.ALL.toNat.testBit i = true := by decide
    exact this i hi h2
  rw [this, Bool.and_true]

-- 300 rows, insert id 2^40, status 2, one warning, message "ok"
example : runP (OkPacket.readOk 0x0100_8200)
    ([0, 0xFC, 44, 1, 0xFE, 0, 0, 0, 0, 0, 1, 0, 0, 2, 0, 1, 0, 2, 111, 107])
    = .ok { affectedRows := 300, lastInsertId := 1099511627776, status := 2, warnings := 1,
            message := some ['o', 'k'], sessionStateInfo := none } := by decide +kernel

-- three rows affected
example :
    let ok : Bytes := [7, 0, 0, 1, 0, 3, 5, 2, 0, 1, 0, 9]
    let p : Prepared := { id := 7, params := 1 }
    let rd := textReader { f32 := fun _ => none, f64 := fun _ => none } mkPlain
    (executeQuery "delete from t".toList (exConn ok)).1.map'
        (fun k => (k.affectedRows, k.lastInsertId, k.status, k.warnings)) = .ok (3, 5, 2, 1) ∧
    (p.execute [.int 5] (exConn ok)).1.map'
        (fun k => (k.affectedRows, k.lastInsertId, k.status, k.warnings)) = .ok (3, 5, 2, 1) ∧
    (match query "delete from t".toList (exConn ok) with
      | (.ok rs, c) => (rs.collect rd c).1.map' Prod.snd
      | _ => .panic) = .ok [] := by decide +kernel

example : runP (OkPacket.readOk 0x0180_8200) (Spec.okPacketTracked 1 0 0x4002 0 "ok".toList "db".toList)
    = .ok { affectedRows := 1, lastInsertId := 0, status := 0x4002, warnings := 0,
            message := some ['o', 'k'], sessionStateInfo := some ['d', 'b'] } := by decide +kernel

end Verif

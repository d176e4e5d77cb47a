import Verif.Proofs.ResultSet
import Verif.Proofs.Example

/-!
# C19 — every command is sent verbatim with a fresh sequence

`c.rx` is arbitrary in all of these: nothing the server sends (or fails to send) changes what is
written.
-/

namespace Verif

/-- The bytes written by each operation on a connection without pending rows. -/
theorem C19_sent (sql : Str) (c : Conn) (hp : c.pendingResult = false) (hw : c.wfaults = []) :
    (query sql c).2.tx = c.tx ++ Spec.frames 0 (0x03 :: utf8 sql) ∧
    (executeQuery sql c).2.tx = c.tx ++ Spec.frames 0 (0x03 :: utf8 sql) ∧
    (prepareStatement sql c).2.tx = c.tx ++ Spec.frames 0 (0x16 :: utf8 sql) ∧
    (disconnect c).2.tx = c.tx ++ Spec.frames 0 [0x01] := by
  refine ⟨?_, ?_, ?_, ?_⟩
  · unfold query
    rw [SM.bind_of_ok (executeCommand_clean .query (utf8 sql) c hp hw)]
    exact (readOnly_read _).1
  · unfold executeQuery
    rw [SM.bind_of_ok (executeCommand_clean .query (utf8 sql) c hp hw)]
    exact ((readOnly_readResponse.bind fun r => readOnly_okOrServerError r) _).1
  · unfold prepareStatement
    rw [SM.bind_of_ok (executeCommand_clean .stmtPrepare (utf8 sql) c hp hw)]
    refine (ReadOnly.bind readOnly_readPacket (fun p => ReadOnly.bind ReadOnly.get fun c => ?_) _).1
    split
    · refine ReadOnly.ite ?_ (ReadOnly.ite ?_ (ReadOnly.fail _))
      · exact ReadOnly.bind (ReadOnly.liftP _) fun _ => ReadOnly.bind (readOnly_skipPackets _)
          fun _ => ReadOnly.pure _
      · exact ReadOnly.bind (ReadOnly.liftP _) fun _ => ReadOnly.fail _
    · exact ReadOnly.fail _
  · unfold disconnect
    rw [executeCommand_clean .quit [] c hp hw]
    rfl

/-- In any state, with any pending result and any write failures: what a command writes is a prefix
of exactly that command, framed from sequence number 0 whatever the number was before; and if the
command step succeeds, it is the whole command. -/
theorem C19_any_state (cmd : Command) (data : Bytes) (c : Conn) :
    ∃ t, (executeCommand cmd data c).2.tx = c.tx ++ t ∧
      t <+: Spec.frames 0 (cmd.toByte :: data) ∧
      ((executeCommand cmd data c).1 = .ok () → t = Spec.frames 0 (cmd.toByte :: data)) := by
  unfold executeCommand
  rcases hcl : cleanup c with ⟨o, c1⟩
  have h0 := readOnly_cleanup c
  rw [hcl] at h0
  have h1 : c1.tx = c.tx := h0.1
  clear h0
  cases o with
  | ok x =>
    rw [SM.bind_of_ok hcl, SM.modify_bind_apply]
    obtain ⟨t, q, f, o, h2, h3, h4⟩ := writePacket_gen (cmd.toByte :: data) { c1 with seqId := 0 }
    refine ⟨t, ?_, h3, ?_⟩
    · rw [h2]; simp only [h1]
    · intro hok
      rw [h2] at hok
      rcases h4 with ⟨-, h4, -⟩ | ⟨e, h4⟩
      · exact h4
      · dsimp only at hok; rw [h4] at hok; cases hok
  | err e =>
    rw [SM.bind_of_err hcl]
    exact ⟨[], by simp [h1], List.nil_prefix, fun h => by cases h⟩
  | panic =>
    rw [SM.bind_of_panic hcl]
    exact ⟨[], by simp [h1], List.nil_prefix, fun h => by cases h⟩

/-- The first frame of a command of ordinary size, spelled out. -/
theorem C19_short_query_bytes (sql : Str) (h : (utf8 sql).length + 1 < 2 ^ 24 - 1) :
    Spec.frames 0 (0x03 :: utf8 sql)
      = Spec.le 3 ((utf8 sql).length + 1) ++ [0, 0x03] ++ utf8 sql := by
  unfold Spec.frames
  rw [if_pos (by simp only [List.length_cons, Spec.maxFrame]; omega)]
  simp

-- what is sent, also when reading the leftovers or writing fails
example : (query "select 1".toList (exConn [])).2.tx = [9, 0, 0, 0, 3] ++ utf8 "select 1".toList ∧
    (prepareStatement "select ?".toList (exConn [])).2.tx = [9, 0, 0, 0, 22] ++ utf8 "select ?".toList ∧
    (disconnect (exConn [])).2.tx = [1, 0, 0, 0, 1] := by decide +kernel

example :
    (executeCommand .query (utf8 "select 1".toList) { exConn [5] with pendingResult := true }).1
      = .err (.protocol (.io .unexpectedEof)) ∧
    (executeCommand .query (utf8 "select 1".toList) { exConn [5] with pendingResult := true }).2.tx = [] ∧
    (executeCommand .query (utf8 "select 1".toList) { exConn [] with wfaults := [none, some (3, .closed)] }).2.tx
      = [9, 0, 0, 0, 3, 115, 101] := by decide +kernel

end Verif

import Verif.Model.Api
import Verif.Props.C12_Iteration
import Verif.Props.C19_Commands

/-!
# C62 — prepared statements are released on the server

False for the code: COM_STMT_CLOSE is never sent, so every prepared statement stays allocated on the
server until the connection ends.  What is sent, in every history of calls and whatever the server
answers, is a sequence of whole commands of four kinds.
-/

namespace Verif

/-- the commands the connector sends after connecting: query, prepare, execute, long data. -/
def Spec.Sent (q : Bytes) : Prop := ∃ t, q = 0x03 :: t ∨ q = 0x16 :: t ∨ q = 0x17 :: t ∨ q = 0x18 :: t

/-- on a stream that accepts all writes, only whole commands of these kinds are written. -/
def Speaks {α : Type} (m : M α) : Prop :=
  ∀ c, c.wfaults = [] → (m c).2.wfaults = [] ∧
    ∃ cmds, (m c).2.tx = c.tx ++ Spec.commands cmds ∧ ∀ q ∈ cmds, Spec.Sent q

namespace Speaks

variable {α β : Type}

theorem quiet {m : M α} (h : ReadOnly m) : Speaks m := fun c hc =>
  ⟨by rw [(h c).2]; exact hc, [], by rw [(h c).1]; simp [Spec.commands], by simp⟩

theorem bind {m : M α} {f : α → M β} (hm : Speaks m) (hf : ∀ a, Speaks (f a)) :
    Speaks (m >>= f) := by
  intro c hc
  obtain ⟨h1, cmds, h2, h3⟩ := hm c hc
  match he : m c with
  | (.ok a, c') =>
    rw [SM.bind_of_ok he]
    rw [he] at h1 h2
    obtain ⟨k1, cmds', k2, k3⟩ := hf a c' h1
    refine ⟨k1, cmds ++ cmds', ?_, ?_⟩
    · rw [k2, h2, commands_append, List.append_assoc]
    · intro q hq
      rcases List.mem_append.1 hq with hq | hq
      · exact h3 q hq
      · exact k3 q hq
  | (.err e, c') =>
    rw [SM.bind_of_err he]
    rw [he] at h1 h2
    exact ⟨h1, cmds, h2, h3⟩
  | (.panic, c') =>
    rw [SM.bind_of_panic he]
    rw [he] at h1 h2
    exact ⟨h1, cmds, h2, h3⟩

theorem send (q : Bytes) (hq : Spec.Sent q) :
    Speaks (SM.modify (fun c : Conn => { c with seqId := 0 }) >>= fun _ => writePacket q) := by
  intro c hc
  rw [SM.modify_bind_apply, writePacket_ok _ _ (by simpa using hc)]
  refine ⟨hc, [q], ?_, ?_⟩
  · simp [Spec.commands]
  · intro q' hq'
    rw [List.mem_singleton.1 hq']
    exact hq

theorem executeCommand (cmd : Command) (data : Bytes) (h : Spec.Sent (cmd.toByte :: data)) :
    Speaks (Verif.executeCommand cmd data) :=
  bind (quiet readOnly_cleanup) fun _ => send _ h

theorem writeCommand (q : Bytes) (h : Spec.Sent q) : Speaks (Verif.writeCommand q) :=
  bind (quiet readOnly_cleanup) fun _ => send _ h

theorem sendPieces (id : UInt32) (i : Nat) (ps : List Bytes) : Speaks (Verif.sendPieces id i ps) := by
  induction ps with
  | nil => exact quiet (ReadOnly.pure _)
  | cons p ps ih =>
    exact bind (writeCommand _ ⟨_, .inr (.inr (.inr rfl))⟩) fun _ => ih

theorem sendLongData (id : UInt32) (i : Nat) (vs : List Value) : Speaks (Verif.sendLongData id i vs) := by
  induction vs generalizing i with
  | nil => exact quiet (ReadOnly.pure _)
  | cons v vs ih => exact bind (sendPieces _ _ _) fun _ => ih _

theorem sendExecute (id : UInt32) (vs : List Value) : Speaks (Verif.sendExecute id vs) := by
  unfold Verif.sendExecute
  refine bind (quiet (ReadOnly.ofOut _)) fun req => ?_
  have h : Speaks (Verif.writeCommand req.serialize) := writeCommand _ ⟨_, .inr (.inr (.inl rfl))⟩
  split
  · exact bind (sendLongData _ _ _) fun _ => h
  · exact h

end Speaks

theorem readOnly_attempt {α : Type} {m : M α} (h : ReadOnly m) : ReadOnly (SM.attempt m) := by
  intro c
  have := h c
  unfold SM.attempt
  match he : m c with
  | (.ok a, c') => rw [he] at this; exact this
  | (.err e, c') => rw [he] at this; exact this
  | (.panic, c') => rw [he] at this; exact this

section
variable {R : Type} (rd : RowReader R)

theorem readOnly_collectLoop (n : Nat) (rs : RSet) : ReadOnly (RSet.collectLoop rd n rs) := by
  induction n generalizing rs with
  | zero => exact ReadOnly.crash
  | succ n ih =>
    unfold RSet.collectLoop
    refine ReadOnly.bind (readOnly_next rd rs) fun x => ?_
    dsimp only
    split
    · exact ReadOnly.pure _
    · exact ReadOnly.bind (ih _) fun _ => ReadOnly.pure _

theorem readOnly_collect (rs : RSet) : ReadOnly (rs.collect rd) := fun c => readOnly_collectLoop rd _ _ c

theorem readOnly_drain (rs : RSet) : ReadOnly (rs.drain rd) :=
  ReadOnly.bind (readOnly_collect rd rs) fun _ => ReadOnly.pure _

theorem readOnly_one (rs : RSet) : ReadOnly (rs.one rd) := by
  unfold RSet.one
  refine ReadOnly.bind (readOnly_attempt (readOnly_next rd rs)) fun x => ?_
  split
  · exact ReadOnly.bind (readOnly_drain rd _) fun _ => ReadOnly.pure _
  · exact ReadOnly.bind (readOnly_drain rd _) fun _ => ReadOnly.fail _

theorem readOnly_finish (rs : RSet) : ReadOnly (rs.finish rd) := by
  unfold RSet.finish
  split
  · exact ReadOnly.pure _
  · refine ReadOnly.bind (readOnly_drain rd _) fun x => ?_
    split
    · exact ReadOnly.pure _
    · exact ReadOnly.crash

end

theorem readOnly_readPrepared : ReadOnly (do
    let packet ← readPacket
    let c ← SM.get
    match packet with
    | b :: _ =>
      if b = 0x00 then do
        let stmt ← liftP (runP Stmt.deserialize packet)
        skipPackets (stmt.paramsLen.toNat + stmt.columnsLen.toNat)
        pure { id := stmt.id, params := stmt.paramsLen.toNat }
      else if b = 0xFF then do
        let e ← liftP (runP (ErrPacket.deserialize c.data.capabilities) packet)
        SM.fail (.server e)
      else SM.fail (.protocol (.unexpectedPacket packet))
    | [] => SM.fail (.protocol (.unexpectedPacket packet)) : M Prepared) := by
  refine ReadOnly.bind readOnly_readPacket fun p => ReadOnly.bind ReadOnly.get fun c => ?_
  split
  · refine ReadOnly.ite ?_ (ReadOnly.ite ?_ (ReadOnly.fail _))
    · exact ReadOnly.bind (ReadOnly.liftP _) fun _ => ReadOnly.bind (readOnly_skipPackets _)
        fun _ => ReadOnly.pure _
    · exact ReadOnly.bind (ReadOnly.liftP _) fun _ => ReadOnly.fail _
  · exact ReadOnly.fail _

theorem readOnly_response : ReadOnly (readResponse >>= okOrServerError) :=
  readOnly_readResponse.bind fun r => readOnly_okOrServerError r

theorem Speaks.call (x : Call) : Speaks x.run := by
  have hv : ∀ {α : Type} {m : M α}, Speaks m → Speaks m.void := fun h =>
    Speaks.bind h fun _ => Speaks.quiet (ReadOnly.pure _)
  cases x with
  | query sql =>
    exact hv (Speaks.bind (Speaks.executeCommand _ _ ⟨_, .inl rfl⟩) fun _ => Speaks.quiet readOnly_read)
  | executeQuery sql =>
    exact hv (Speaks.bind (Speaks.executeCommand _ _ ⟨_, .inl rfl⟩) fun _ => Speaks.quiet readOnly_response)
  | next rd rs => exact hv (Speaks.quiet (readOnly_next rd rs))
  | collect rd rs => exact hv (Speaks.quiet (readOnly_collect rd rs))
  | one rd rs => exact hv (Speaks.quiet (readOnly_one rd rs))
  | finish rd rs => exact hv (Speaks.quiet (readOnly_finish rd rs))
  | prepare sql =>
    exact hv (Speaks.bind (Speaks.executeCommand _ _ ⟨_, .inr (.inl rfl)⟩) fun _ =>
      Speaks.quiet readOnly_readPrepared)
  | stmtQuery p vs =>
    refine hv ?_
    unfold Prepared.query
    split
    · exact Speaks.quiet (ReadOnly.fail _)
    · exact Speaks.bind (Speaks.sendExecute _ _) fun _ => Speaks.quiet readOnly_read
  | stmtExecute p vs =>
    refine hv ?_
    unfold Prepared.execute
    split
    · exact Speaks.quiet (ReadOnly.fail _)
    · exact Speaks.bind (Speaks.sendExecute _ _) fun _ => Speaks.quiet readOnly_response

/-- **What is written**, in every history of calls, whatever the server sends and wherever the calls
fail: whole commands, each framed from sequence number 0, each a query, a prepare, an execute or a piece
of long data. -/
theorem C62_only_commands_partial (calls : List Call) (c : Conn) (hw : c.wfaults = []) :
    ∃ cmds, (runCalls calls c).tx = c.tx ++ Spec.commands cmds ∧ ∀ q ∈ cmds, Spec.Sent q := by
  induction calls generalizing c with
  | nil => exact ⟨[], by simp [runCalls, Spec.commands], by simp⟩
  | cons x calls ih =>
    obtain ⟨h1, cmds, h2, h3⟩ := Speaks.call x c hw
    obtain ⟨cmds', k2, k3⟩ := ih (x.run c).2 h1
    refine ⟨cmds ++ cmds', ?_, ?_⟩
    · unfold runCalls
      rw [k2, h2, commands_append, List.append_assoc]
    · intro q hq
      rcases List.mem_append.1 hq with hq | hq
      · exact h3 q hq
      · exact k3 q hq

/-- the commands of a history, as a server reads them. -/
theorem Spec.commands_cons (q : Bytes) (qs : List Bytes) :
    Spec.commands (q :: qs) = Spec.frames 0 q ++ Spec.commands qs := by
  simp [Spec.commands]

/-- **C62 is false**: in no history is any statement ever closed; no command that is written is
COM_STMT_CLOSE (0x19), neither for the statement ids in use nor for any other. -/
theorem C62_never_closed_violated (calls : List Call) (c : Conn) (hw : c.wfaults = []) :
    ∃ cmds, (runCalls calls c).tx = c.tx ++ Spec.commands cmds ∧
      ∀ q ∈ cmds, ∀ id, q ≠ stmtCloseBytes id := by
  obtain ⟨cmds, h1, h2⟩ := C62_only_commands_partial calls c hw
  refine ⟨cmds, h1, fun q hq id e => ?_⟩
  obtain ⟨t, h⟩ := h2 q hq
  have e2 : stmtCloseBytes id = 0x19 :: leBytes 4 id.toNat := rfl
  rw [e, e2] at h
  rcases h with h | h | h | h <;>
  · injection h with h _
    revert h
    decide

-- two statements are prepared (and dropped), each answered with a statement of no parameters: what
-- goes out is the two prepare commands, and nothing on dropping
example :
    (runCalls [.prepare "do 1".toList, .prepare "do 2".toList]
      { exConn [] with rx := rxOf (Spec.frames 1 (Spec.stmtOk 1 0 0 0) ++
                                    Spec.frames 1 (Spec.stmtOk 2 0 0 0)) }).tx
      = Spec.commands [0x16 :: utf8 "do 1".toList, 0x16 :: utf8 "do 2".toList] := by decide +kernel

end Verif

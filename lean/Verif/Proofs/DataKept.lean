import Verif.Proofs.Auth

/-!
# Commands leave options and connection data alone
-/

namespace Verif

/-- the action changes neither the options nor the connection data, however it ends. -/
def DataKept {α : Type} (m : M α) : Prop := ∀ c, ((m c).2.options, (m c).2.data) = (c.options, c.data)

namespace DataKept

variable {α β : Type}

theorem pure (a : α) : DataKept (Pure.pure a : M α) := fun _ => rfl
theorem fail (e : Error) : DataKept (SM.fail e : M α) := fun _ => rfl
theorem crash : DataKept (SM.crash : M α) := fun _ => rfl
theorem get : DataKept (SM.get : M Conn) := fun _ => rfl
theorem ofOut (o : Out Error α) : DataKept (SM.ofOut o : M α) := by
  intro c; cases o <;> rfl

theorem bind {m : M α} {f : α → M β} (hm : DataKept m) (hf : ∀ a, DataKept (f a)) :
    DataKept (m >>= f) := by
  intro c
  have h := hm c
  rw [SM.bind_apply]
  match e : m c with
  | (.ok a, s) => rw [e] at h; exact (hf a s).trans h
  | (.err _, s) => rw [e] at h; exact h
  | (.panic, s) => rw [e] at h; exact h

theorem ite {p : Prop} [Decidable p] {a b : M α} (ha : DataKept a) (hb : DataKept b) :
    DataKept (if p then a else b) := by
  split <;> assumption

theorem attempt {m : M α} (hm : DataKept m) : DataKept (SM.attempt m) := by
  intro c
  have h := hm c
  unfold SM.attempt
  match e : m c with
  | (.ok a, s) => rw [e] at h; exact h
  | (.err _, s) => rw [e] at h; exact h
  | (.panic, s) => rw [e] at h; exact h

theorem setPending (b : Bool) : DataKept (SM.modify fun c => { c with pendingResult := b } : M Unit) :=
  fun _ => rfl
theorem setSeq (b : UInt8) : DataKept (SM.modify fun c => { c with seqId := b } : M Unit) :=
  fun _ => rfl

theorem readPacket : DataKept Verif.readPacket := by
  intro c
  obtain ⟨h1, h2, h3⟩ := Keeps.readPacket c
  rw [h1, h2]

theorem writePacket (bs : Bytes) : DataKept (Verif.writePacket bs) := by
  intro c
  obtain ⟨t, f, s, x, h1, _, _⟩ := writePacket_gen bs c
  rw [h1]

theorem liftP (o : Out ProtocolError α) : DataKept (Verif.liftP o) := by
  unfold Verif.liftP; exact ofOut _

theorem liftParse (o : Out ParseError α) : DataKept (Verif.liftParse o) := by
  unfold Verif.liftParse; exact ofOut _

theorem decodeResponse (p : Bytes) : DataKept (Verif.decodeResponse p) := by
  unfold Verif.decodeResponse
  refine bind get fun c => ?_
  split
  · exact fail _
  · exact ite (bind (liftP _) fun _ => pure _) (ite (bind (liftP _) fun _ => pure _) (fail _))

theorem readResponse : DataKept Verif.readResponse := by
  unfold Verif.readResponse
  exact bind readPacket fun _ => decodeResponse _

theorem okOrServerError (r : Except ErrPacket OkPacket) : DataKept (Verif.okOrServerError r) := by
  unfold Verif.okOrServerError
  split
  · exact pure _
  · exact fail _

theorem cleanupLoop (n : Nat) : DataKept (Verif.cleanupLoop n) := by
  induction n with
  | zero => exact crash
  | succ n ih =>
    unfold Verif.cleanupLoop
    exact bind readPacket fun _ => bind get fun _ => bind (ofOut _) fun _ =>
      ite (bind (setPending _) fun _ => liftP _) ih

theorem cleanup : DataKept Verif.cleanup := by
  intro c
  unfold Verif.cleanup
  split
  · exact bind (cleanupLoop _) (fun _ => pure _) c
  · rfl

theorem executeCommand (cmd : Command) (data : Bytes) : DataKept (Verif.executeCommand cmd data) := by
  unfold Verif.executeCommand
  exact bind cleanup fun _ => bind (setSeq _) fun _ => writePacket _

theorem writeCommand (bs : Bytes) : DataKept (Verif.writeCommand bs) := by
  unfold Verif.writeCommand
  exact bind cleanup fun _ => bind (setSeq _) fun _ => writePacket _

theorem readColumnDefs (n : Nat) : DataKept (Verif.readColumnDefs n) := by
  induction n with
  | zero => exact pure _
  | succ n ih =>
    unfold Verif.readColumnDefs
    exact bind readPacket fun _ => bind (liftP _) fun _ => bind ih fun _ => pure _

theorem readColumns (n : Nat) : DataKept (Verif.readColumns n) := by
  unfold Verif.readColumns
  split
  · exact crash
  · exact readColumnDefs n

theorem read : DataKept RSet.read := by
  unfold RSet.read
  refine bind readPacket fun _ => bind get fun _ => ?_
  split
  · exact ite (bind (decodeResponse _) fun _ => bind (okOrServerError _) fun _ => pure _)
      (ite crash (ite (bind (liftP _) fun _ => fail _)
        (bind (setPending _) fun _ => bind (liftP _) fun _ => bind (readColumns _) fun _ => pure _)))
  · exact bind (setPending _) fun _ => bind (liftP _) fun _ => bind (readColumns _) fun _ => pure _

variable {R : Type} (rd : RowReader R)

theorem next (rs : RSet) : DataKept (rs.next rd) := by
  unfold RSet.next
  exact ite (pure _) (bind readPacket fun _ => bind get fun _ => bind (ofOut _) fun _ =>
    ite (bind (liftP _) fun _ => bind (setPending _) fun _ => pure _)
      (bind (liftP _) fun _ => bind (liftParse _) fun _ => pure _))

theorem collectLoop (n : Nat) (rs : RSet) : DataKept (RSet.collectLoop rd n rs) := by
  induction n generalizing rs with
  | zero => exact crash
  | succ n ih =>
    unfold RSet.collectLoop
    refine bind (next rd rs) fun p => ?_
    split
    split
    · exact pure _
    · exact bind (ih _) fun _ => pure _

theorem collect (rs : RSet) : DataKept (rs.collect rd) := fun c => collectLoop rd _ _ c

theorem drain (rs : RSet) : DataKept (rs.drain rd) := by
  unfold RSet.drain
  exact bind (collect rd rs) fun _ => pure _

theorem one (rs : RSet) : DataKept (rs.one rd) := by
  unfold RSet.one
  refine bind (attempt (next rd rs)) fun r => ?_
  split
  · exact bind (drain rd _) fun _ => pure _
  · exact bind (drain rd _) fun _ => fail _

theorem finish (rs : RSet) : DataKept (rs.finish rd) := by
  unfold RSet.finish
  split
  · exact pure _
  · refine bind (drain rd _) fun r => ?_
    split
    · exact pure _
    · exact crash

theorem query (sql : Str) : DataKept (Verif.query sql) := by
  unfold Verif.query
  exact bind (executeCommand _ _) fun _ => read

theorem executeQuery (sql : Str) : DataKept (Verif.executeQuery sql) := by
  unfold Verif.executeQuery
  exact bind (executeCommand _ _) fun _ => bind readResponse fun _ => okOrServerError _

theorem disconnect : DataKept Verif.disconnect := executeCommand _ _

theorem skipPackets (n : Nat) : DataKept (Verif.skipPackets n) := by
  induction n with
  | zero => exact pure _
  | succ n ih => unfold Verif.skipPackets; exact bind readPacket fun _ => ih

theorem prepareStatement (sql : Str) : DataKept (Verif.prepareStatement sql) := by
  unfold Verif.prepareStatement
  refine bind (executeCommand _ _) fun _ => bind readPacket fun _ => bind get fun _ => ?_
  split
  · exact ite (bind (liftP _) fun _ => bind (skipPackets _) fun _ => pure _)
      (ite (bind (liftP _) fun _ => fail _) (fail _))
  · exact fail _

theorem sendPieces (id : UInt32) (i : Nat) (ps : List Bytes) : DataKept (Verif.sendPieces id i ps) := by
  induction ps with
  | nil => exact pure _
  | cons p ps ih => unfold Verif.sendPieces; exact bind (writeCommand _) fun _ => ih

theorem sendLongData (id : UInt32) (i : Nat) (vs : List Value) :
    DataKept (Verif.sendLongData id i vs) := by
  induction vs generalizing i with
  | nil => exact pure _
  | cons v vs ih => unfold Verif.sendLongData; exact bind (sendPieces _ _ _) fun _ => ih _

theorem sendExecute (id : UInt32) (vs : List Value) : DataKept (Verif.sendExecute id vs) := by
  unfold Verif.sendExecute
  exact bind (ofOut _) fun _ => ite (bind (sendLongData _ _ _) fun _ => writeCommand _) (writeCommand _)

theorem stmtQuery (p : Prepared) (vs : List Value) : DataKept (p.query vs) := by
  unfold Prepared.query
  exact ite (fail _) (bind (sendExecute _ _) fun _ => read)

theorem stmtExecute (p : Prepared) (vs : List Value) : DataKept (p.execute vs) := by
  unfold Prepared.execute
  exact ite (fail _) (bind (sendExecute _ _) fun _ => bind readResponse fun _ => okOrServerError _)

end DataKept

end Verif

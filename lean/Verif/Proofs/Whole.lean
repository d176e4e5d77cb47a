import Verif.Spec.Interactive
import Verif.Spec.Auth
import Verif.Proofs.ResultSet

/-!
# What is written is whole packets
-/

namespace Verif

/-- when no write fails, all that is written is whole packets. -/
def Whole {α : Type} (m : M α) : Prop :=
  ∀ c, c.wfaults = [] → (m c).2.wfaults = [] ∧ ∃ ps, (m c).2.tx = c.tx ++ Spec.wire ps

namespace Whole

variable {α β : Type}

theorem still {m : M α} (h : ∀ c, (m c).2.tx = c.tx ∧ (m c).2.wfaults = c.wfaults) : Whole m := fun c hc =>
  ⟨(h c).2.trans hc, [], by rw [(h c).1]; exact (List.append_nil _).symm⟩

theorem pure (a : α) : Whole (Pure.pure a : M α) := still fun _ => ⟨rfl, rfl⟩
theorem fail (e : Error) : Whole (SM.fail e : M α) := still fun _ => ⟨rfl, rfl⟩
theorem crash : Whole (SM.crash : M α) := still fun _ => ⟨rfl, rfl⟩
theorem get : Whole (SM.get : M Conn) := still fun _ => ⟨rfl, rfl⟩
theorem ofOut (x : Out Error α) : Whole (SM.ofOut x : M α) := still fun _ => by cases x <;> exact ⟨rfl, rfl⟩
theorem liftP (x : Out ProtocolError α) : Whole (Verif.liftP x) := ofOut _
theorem liftParse (x : Out ParseError α) : Whole (Verif.liftParse x) := ofOut _

theorem bind {m : M α} {f : α → M β} (hm : Whole m) (hf : ∀ a, Whole (f a)) : Whole (m >>= f) := by
  intro c hc
  have h := hm c hc
  rw [SM.bind_apply]
  match e : m c with
  | (.ok a, s) =>
    rw [e] at h
    obtain ⟨h1, ps, h2⟩ := h
    obtain ⟨h3, qs, h4⟩ := hf a s h1
    exact ⟨h3, ps ++ qs, by dsimp only at *; rw [h4, h2, List.append_assoc]; unfold Spec.wire; rw [List.flatMap_append]⟩
  | (.err _, s) => rw [e] at h; exact h
  | (.panic, s) => rw [e] at h; exact h

theorem ite {p : Prop} [Decidable p] {a b : M α} (ha : Whole a) (hb : Whole b) : Whole (if p then a else b) := by
  split <;> assumption

theorem attempt {m : M α} (hm : Whole m) : Whole (SM.attempt m) := by
  intro c hc
  have h := hm c hc
  unfold SM.attempt
  match e : m c with
  | (.ok a, s) => rw [e] at h; exact h
  | (.err _, s) => rw [e] at h; exact h
  | (.panic, s) => rw [e] at h; exact h

theorem readOnly {m : M α} (h : ReadOnly m) : Whole m := still h

theorem readPacket : Whole Verif.readPacket := readOnly readOnly_readPacket

theorem writePacket (bs : Bytes) : Whole (Verif.writePacket bs) := fun c hc => by
  rw [writePacket_ok bs c hc]
  exact ⟨hc, [(c.seqId, bs)], by simp [Spec.wire]⟩

theorem setPending (b : Bool) : Whole (SM.modify fun c => { c with pendingResult := b } : M Unit) :=
  still fun _ => ⟨rfl, rfl⟩
theorem setSeq (b : UInt8) : Whole (SM.modify fun c => { c with seqId := b } : M Unit) := still fun _ => ⟨rfl, rfl⟩

theorem decodeResponse (p : Bytes) : Whole (Verif.decodeResponse p) := by
  unfold Verif.decodeResponse
  refine bind get fun c => ?_
  split
  · exact fail _
  · exact ite (bind (liftP _) fun _ => pure _) (ite (bind (liftP _) fun _ => pure _) (fail _))

theorem readResponse : Whole Verif.readResponse := bind readPacket fun _ => decodeResponse _

theorem okOrServerError (r : Except ErrPacket OkPacket) : Whole (Verif.okOrServerError r) := by
  unfold Verif.okOrServerError
  split
  · exact pure _
  · exact fail _

theorem cleanupLoop (n : Nat) : Whole (Verif.cleanupLoop n) := by
  induction n with
  | zero => exact crash
  | succ n ih =>
    unfold Verif.cleanupLoop
    exact bind readPacket fun _ => bind get fun _ => bind (ofOut _) fun _ =>
      ite (bind (setPending _) fun _ => liftP _) ih

theorem cleanup : Whole Verif.cleanup := by
  intro c hc
  unfold Verif.cleanup
  split
  · exact bind (cleanupLoop _) (fun _ => pure _) c hc
  · exact pure _ c hc

theorem executeCommand (cmd : Command) (data : Bytes) : Whole (Verif.executeCommand cmd data) :=
  bind cleanup fun _ => bind (setSeq _) fun _ => writePacket _

theorem writeCommand (bs : Bytes) : Whole (Verif.writeCommand bs) :=
  bind cleanup fun _ => bind (setSeq _) fun _ => writePacket _

theorem readColumnDefs (n : Nat) : Whole (Verif.readColumnDefs n) := by
  induction n with
  | zero => exact pure _
  | succ n ih =>
    unfold Verif.readColumnDefs
    exact bind readPacket fun _ => bind (liftP _) fun _ => bind ih fun _ => pure _

theorem readColumns (n : Nat) : Whole (Verif.readColumns n) := by
  unfold Verif.readColumns
  split
  · exact crash
  · exact readColumnDefs n

theorem read : Whole RSet.read := by
  unfold RSet.read
  refine bind readPacket fun _ => bind get fun _ => ?_
  split
  · exact ite (bind (decodeResponse _) fun _ => bind (okOrServerError _) fun _ => pure _)
      (ite crash (ite (bind (liftP _) fun _ => fail _)
        (bind (setPending _) fun _ => bind (liftP _) fun _ => bind (readColumns _) fun _ => pure _)))
  · exact bind (setPending _) fun _ => bind (liftP _) fun _ => bind (readColumns _) fun _ => pure _

variable {R : Type} (rd : RowReader R)

theorem next (rs : RSet) : Whole (rs.next rd) := by
  unfold RSet.next
  exact ite (pure _) (bind readPacket fun _ => bind get fun _ => bind (ofOut _) fun _ =>
    ite (bind (liftP _) fun _ => bind (setPending _) fun _ => pure _)
      (bind (liftP _) fun _ => bind (liftParse _) fun _ => pure _))

theorem collectLoop (n : Nat) (rs : RSet) : Whole (RSet.collectLoop rd n rs) := by
  induction n generalizing rs with
  | zero => exact crash
  | succ n ih =>
    unfold RSet.collectLoop
    refine bind (next rd rs) fun p => ?_
    split
    split
    · exact pure _
    · exact bind (ih _) fun _ => pure _

theorem collect (rs : RSet) : Whole (rs.collect rd) := fun c => collectLoop rd _ _ c

theorem drain (rs : RSet) : Whole (rs.drain rd) := bind (collect rd rs) fun _ => pure _

theorem one (rs : RSet) : Whole (rs.one rd) := by
  unfold RSet.one
  refine bind (attempt (next rd rs)) fun r => ?_
  split
  · exact bind (drain rd _) fun _ => pure _
  · exact bind (drain rd _) fun _ => fail _

theorem finish (rs : RSet) : Whole (rs.finish rd) := by
  unfold RSet.finish
  split
  · exact pure _
  · refine bind (drain rd _) fun r => ?_
    split
    · exact pure _
    · exact crash

theorem query (sql : Str) : Whole (Verif.query sql) := bind (executeCommand _ _) fun _ => read

theorem executeQuery (sql : Str) : Whole (Verif.executeQuery sql) :=
  bind (executeCommand _ _) fun _ => bind readResponse fun _ => okOrServerError _

theorem disconnect : Whole Verif.disconnect := executeCommand _ _

theorem skipPackets (n : Nat) : Whole (Verif.skipPackets n) := by
  induction n with
  | zero => exact pure _
  | succ n ih => unfold Verif.skipPackets; exact bind readPacket fun _ => ih

theorem prepareStatement (sql : Str) : Whole (Verif.prepareStatement sql) := by
  unfold Verif.prepareStatement
  refine bind (executeCommand _ _) fun _ => bind readPacket fun _ => bind get fun _ => ?_
  split
  · exact ite (bind (liftP _) fun _ => bind (skipPackets _) fun _ => pure _)
      (ite (bind (liftP _) fun _ => fail _) (fail _))
  · exact fail _

theorem sendPieces (id : UInt32) (i : Nat) (ps : List Bytes) : Whole (Verif.sendPieces id i ps) := by
  induction ps with
  | nil => exact pure _
  | cons p ps ih => unfold Verif.sendPieces; exact bind (writeCommand _) fun _ => ih

theorem sendLongData (id : UInt32) (i : Nat) (vs : List Value) : Whole (Verif.sendLongData id i vs) := by
  induction vs generalizing i with
  | nil => exact pure _
  | cons v vs ih => unfold Verif.sendLongData; exact bind (sendPieces _ _ _) fun _ => ih _

theorem sendExecute (id : UInt32) (vs : List Value) : Whole (Verif.sendExecute id vs) := by
  unfold Verif.sendExecute
  exact bind (ofOut _) fun _ => ite (bind (sendLongData _ _ _) fun _ => writeCommand _) (writeCommand _)

theorem stmtQuery (p : Prepared) (vs : List Value) : Whole (p.query vs) := by
  unfold Prepared.query
  exact ite (fail _) (bind (sendExecute _ _) fun _ => read)

theorem stmtExecute (p : Prepared) (vs : List Value) : Whole (p.execute vs) := by
  unfold Prepared.execute
  exact ite (fail _) (bind (sendExecute _ _) fun _ => bind readResponse fun _ => okOrServerError _)

/-! ### connecting -/

theorem handleHandshake (alnum : Char → Bool) : Whole (Verif.handleHandshake alnum) := by
  unfold Verif.handleHandshake
  refine bind readPacket fun p => ?_
  split
  · split
    · exact still fun _ => ⟨rfl, rfl⟩
    · exact crash
  · exact crash

theorem authFailure (packet : Bytes) : Whole (Verif.authFailure (α := α) packet) := by
  unfold Verif.authFailure
  refine bind get fun c => ?_
  split
  · exact fail _
  · exact fail _
  · exact crash

theorem fetchKey : Whole Verif.fetchKey := by
  unfold Verif.fetchKey
  refine bind get fun c => ?_
  split
  · exact pure _
  · refine bind (writePacket _) fun _ => bind readPacket fun packet => bind get fun c => ?_
    split
    · exact fail _
    · exact ite (bind (ofOut _) fun k => bind (still fun _ => ⟨rfl, rfl⟩) fun _ => pure _)
        (ite (bind (liftP _) fun e => fail _) (fail _))

theorem sendPassword (cr : Crypto) : Whole (Verif.sendPassword cr) := by
  unfold Verif.sendPassword
  refine bind get fun c => ?_
  exact ite (writePacket _) (bind fetchKey fun k => bind get fun c => bind (ofOut _) fun x =>
    bind (ofOut _) fun e => writePacket _)

theorem readVerdict : Whole Verif.readVerdict := by
  unfold Verif.readVerdict
  refine bind readPacket fun p => bind get fun c => ?_
  split
  · exact fail _
  · exact ite (pure _) (ite (bind (liftP _) fun e => fail _) (fail _))

theorem fullAuth (cr : Crypto) : Whole (Verif.fullAuth cr) := bind (sendPassword cr) fun _ => readVerdict

theorem switchAuth (cr : Crypto) (sw : AuthSwitch) : Whole (Verif.switchAuth cr sw) := by
  unfold Verif.switchAuth
  refine bind get fun c => ite crash (bind (still fun _ => ⟨rfl, rfl⟩) fun _ => bind get fun c =>
    bind (ofOut _) fun d => ?_)
  split <;> exact writePacket _

theorem continueAuth (cr : Crypto) (n : Nat) : Whole (Verif.continueAuth cr n) := by
  induction n with
  | zero => exact crash
  | succ n ih =>
    unfold Verif.continueAuth
    refine bind get fun c => bind readPacket fun p => bind get fun c => ?_
    split
    · exact authFailure _
    · refine ite (pure _) (ite ?_ (ite ?_ (authFailure _)))
      · split
        · exact fail _
        · exact ite (bind readPacket fun _ => pure _) (ite (fullAuth cr) (fail _))
      · exact bind (liftP _) fun sw => bind (switchAuth cr sw) fun _ => ih

theorem login (cr : Crypto) (alnum : Char → Bool) : Whole (Verif.login cr alnum) :=
  bind (handleHandshake alnum) fun _ =>
    bind (bind get fun _ => bind (ofOut _) fun _ => writePacket _) fun _ => continueAuth cr 2

theorem readSettings (fp : FloatParse) : Whole (Verif.readSettings fp) := by
  unfold Verif.readSettings askLimit
  refine bind get fun c => ite ?_ (pure _)
  refine bind (query _) fun rs => bind (next _ rs) fun x => ?_
  obtain ⟨rs', row⟩ := x
  cases row with
  | none => exact pure _
  | some row =>
    refine bind (ofOut _) fun n => ?_
    cases n with
    | none => exact pure _
    | some n => exact still fun _ => ⟨rfl, rfl⟩

theorem connect (cr : Crypto) (alnum : Char → Bool) (fp : FloatParse) : Whole (Verif.connect cr alnum fp) :=
  bind (login cr alnum) fun _ => readSettings fp

/-! ### models -/

theorem liftS (x : Out SerializeError α) : Whole (Verif.liftS x) := ofOut _

theorem plainValues (fs : List (Str × Option (Out SerializeError Value))) : Whole (Verif.plainValues fs) := by
  induction fs with
  | nil => exact pure _
  | cons f fs ih =>
    obtain ⟨n, x⟩ := f
    cases x with
    | none => exact ih
    | some x => exact bind (liftS _) fun _ => bind ih fun _ => pure _

theorem memberValues (f : Str) (ms : List (Str × Out SerializeError Value)) : Whole (Verif.memberValues f ms) := by
  induction ms with
  | nil => exact pure _
  | cons m ms ih => exact bind (liftS _) fun _ => bind ih fun _ => pure _

theorem structValues (fs : List (Str × Option (List (Str × Out SerializeError Value)))) :
    Whole (Verif.structValues fs) := by
  induction fs with
  | nil => exact pure _
  | cons f fs ih =>
    obtain ⟨n, x⟩ := f
    cases x with
    | none => exact ih
    | some x => exact bind (memberValues _ _) fun _ => bind ih fun _ => pure _

theorem executeInsert (t : Str) (vs : List NamedValue) : Whole (Verif.executeInsert t vs) :=
  bind (prepareStatement _) fun _ => bind (stmtExecute _ _) fun _ => pure _

mutual
theorem insert : ∀ m : ActiveModel, Whole m.insert
  | .mk t _ plain structs refs => by
    unfold ActiveModel.insert
    exact bind (plainValues _) fun _ => bind (structValues _) fun _ => bind (refValues refs) fun _ => executeInsert _ _

theorem refValues : ∀ r : ActiveRefs, Whole (Verif.refValues r)
  | .nil => by unfold Verif.refValues; exact pure _
  | .set f v r => by unfold Verif.refValues; exact bind (refValues r) fun _ => pure _
  | .insert f m r => by unfold Verif.refValues; exact bind (insert m) fun _ => bind (refValues r) fun _ => pure _
  | .unset _ r => by unfold Verif.refValues; exact refValues r
end

theorem intoValues (m : ActiveModel) : Whole m.intoValues := by
  obtain ⟨t, p, plain, structs, refs⟩ := m
  exact bind (plainValues _) fun _ => bind (structValues _) fun _ => bind (refValues refs) fun _ => pure _

theorem update (id : Value) (primary : Str) (m : ActiveModel) : Whole (m.update id primary) := by
  unfold ActiveModel.update
  exact bind (intoValues m) fun vs =>
    ite (bind (prepareStatement _) fun _ => bind (stmtExecute _ _) fun _ => pure _) (pure _)

/-! ### the migrator -/

theorem loadLoop (fp : FloatParse) (ms : List MigList) (n : Nat) (rs : RSet) (a : Version → List Str) :
    Whole (Verif.loadLoop fp ms n rs a) := by
  induction n generalizing rs a with
  | zero => exact crash
  | succ n ih =>
    unfold Verif.loadLoop
    refine bind (next _ rs) fun x => ?_
    obtain ⟨rs', k⟩ := x
    cases k with
    | none => exact pure _
    | some k => exact ite (ih _ _) crash

theorem loadTable (fp : FloatParse) (ms : List MigList) : Whole (Verif.loadTable fp ms) :=
  bind (query _) fun rs => bind get fun c => loadLoop fp ms _ rs _

theorem ensureTable (fp : FloatParse) : Whole (Verif.ensureTable fp) :=
  bind (query _) fun rs => bind (collect _ rs) fun _ => ite (bind (executeQuery _) fun _ => pure _) (pure _)

theorem migratorOpen (debug : Bool) (fp : FloatParse) (ms : List MigList) : Whole (Verif.migratorOpen debug fp ms) :=
  ite crash (bind (ensureTable fp) fun _ => loadTable fp ms)

/-! ### without overflow checks -/

theorem handleHandshakeRel (alnum : Char → Bool) : Whole (Verif.handleHandshakeRel alnum) := by
  unfold Verif.handleHandshakeRel
  refine bind readPacket fun p => ?_
  split
  · split
    · exact still fun _ => ⟨rfl, rfl⟩
    · exact crash
  · exact crash

theorem loginRel (cr : Crypto) (alnum : Char → Bool) : Whole (Verif.loginRel cr alnum) :=
  bind (handleHandshakeRel alnum) fun _ =>
    bind (bind get fun _ => bind (ofOut _) fun _ => writePacket _) fun _ => continueAuth cr 2

theorem readSettingsRel (fp : FloatParse) : Whole (Verif.readSettingsRel fp) := by
  unfold Verif.readSettingsRel askLimitRel
  refine bind get fun c => ite ?_ (pure _)
  refine bind (query _) fun rs => bind (next _ rs) fun x => ?_
  obtain ⟨rs', row⟩ := x
  cases row with
  | none => exact pure _
  | some row =>
    refine bind (ofOut _) fun n => ?_
    cases n with
    | none => exact pure _
    | some n => exact still fun _ => ⟨rfl, rfl⟩

theorem connectRel (cr : Crypto) (alnum : Char → Bool) (fp : FloatParse) : Whole (Verif.connectRel cr alnum fp) :=
  bind (loginRel cr alnum) fun _ => readSettingsRel fp

theorem loadLoopRel (fp : FloatParse) (ms : List MigList) (n : Nat) (rs : RSet) (a : Version → List Str) :
    Whole (Verif.loadLoopRel fp ms n rs a) := by
  induction n generalizing rs a with
  | zero => exact crash
  | succ n ih =>
    unfold Verif.loadLoopRel
    refine bind (next _ rs) fun x => ?_
    obtain ⟨rs', k⟩ := x
    cases k with
    | none => exact pure _
    | some k => exact ite (ih _ _) crash

theorem loadTableRel (fp : FloatParse) (ms : List MigList) : Whole (Verif.loadTableRel fp ms) :=
  bind (query _) fun rs => bind get fun c => loadLoopRel fp ms _ rs _

theorem ensureTableRel (fp : FloatParse) : Whole (Verif.ensureTableRel fp) :=
  bind (query _) fun rs => bind (collect _ rs) fun _ => ite (bind (executeQuery _) fun _ => pure _) (pure _)

theorem migratorOpenRel (fp : FloatParse) (ms : List MigList) : Whole (Verif.migratorOpenRel fp ms) :=
  bind (ensureTableRel fp) fun _ => loadTableRel fp ms

theorem library {m : M α} (h : Spec.Library m) : Whole m := by
  cases h with
  | connect cr alnum fp => exact connect cr alnum fp
  | disconnect => exact disconnect
  | query sql => exact query sql
  | executeQuery sql => exact executeQuery sql
  | prepare sql => exact prepareStatement sql
  | stmtQuery p vs => exact stmtQuery p vs
  | stmtExecute p vs => exact stmtExecute p vs
  | next rd rs => exact next rd rs
  | collect rd rs => exact collect rd rs
  | one rd rs => exact one rd rs
  | finish rd rs => exact finish rd rs
  | insert m => exact insert m
  | update id p m => exact update id p m
  | migrator d fp ms => exact migratorOpen d fp ms
  | connectRel cr alnum fp => exact connectRel cr alnum fp
  | migratorRel fp ms => exact migratorOpenRel fp ms

end Whole

end Verif

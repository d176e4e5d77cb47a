import Verif.Proofs.ResultSet
import Verif.Model.Dialog
import Verif.Model.Active
import Verif.Model.MigratorWire

/-!
# What the calls look at

No call after the login looks at the options or at anything the handshake told but the capabilities.
-/

namespace Verif

/-- the connection with other options and other data of the handshake. -/
def Conn.other (d : ConnData) (o : Options) (c : Conn) : Conn := { c with data := d, options := o }

/-- the same answers to what the calls want to know about the server. -/
structure Alike (a b : UInt32) : Prop where
  eof : hasFlag32 a Cap.DEPRECATE_EOF = hasFlag32 b Cap.DEPRECATE_EOF
  state : hasFlag32 a Cap.PROTOCOL_41 = hasFlag32 b Cap.PROTOCOL_41
  track : hasFlag32 a Cap.SESSION_TRACK = hasFlag32 b Cap.SESSION_TRACK
  progress : hasFlag32 a Cap.PROGRESS_OBSOLETE = hasFlag32 b Cap.PROGRESS_OBSOLETE

theorem Alike.refl (a : UInt32) : Alike a a := ⟨rfl, rfl, rfl, rfl⟩

/-- the action neither looks at these nor changes them, except for that. -/
def Unseen {X : Type} (m : Conn → X × Conn) : Prop :=
  ∀ d o c, Alike d.capabilities c.data.capabilities → m (c.other d o) = ((m c).1, (m c).2.other d o)

/-- in particular nothing of it is changed. -/
theorem Unseen.data {X : Type} {m : Conn → X × Conn} (h : Unseen m) (c : Conn) : (m c).2.data = c.data := by
  have := congrArg (·.2.data) (h c.data c.options c (.refl _))
  exact this

theorem errPacket_alike {a b : UInt32} (h : Alike a b) : ErrPacket.deserialize a = ErrPacket.deserialize b := by
  unfold ErrPacket.deserialize
  rw [h.progress, h.state]

theorem readTail_alike {a b : UInt32} (h : Alike a b) : OkPacket.readTail a = OkPacket.readTail b := by
  funext x y
  unfold OkPacket.readTail
  rw [h.track]

theorem readOk_alike {a b : UInt32} (h : Alike a b) : OkPacket.readOk a = OkPacket.readOk b := by
  unfold OkPacket.readOk
  rw [readTail_alike h]

theorem readEof_alike {a b : UInt32} (h : Alike a b) : OkPacket.readEof a = OkPacket.readEof b := by
  unfold OkPacket.readEof
  rw [readTail_alike h]

theorem isLast_alike {a b : UInt32} (h : Alike a b) : isLast a = isLast b := by
  funext p
  cases p
  · rfl
  · simp only [isLast, h.eof]

namespace Unseen

variable {α β R : Type}

theorem pure (a : α) : Unseen (Pure.pure a : M α) := fun _ _ _ _ => rfl
theorem fail (e : Error) : Unseen (SM.fail e : M α) := fun _ _ _ _ => rfl
theorem crash : Unseen (SM.crash : M α) := fun _ _ _ _ => rfl
theorem ofOut (x : Out Error α) : Unseen (SM.ofOut x : M α) := by
  intro d o c _; cases x <;> rfl
theorem liftP (x : Out ProtocolError α) : Unseen (Verif.liftP x) := ofOut _
theorem liftParse (x : Out ParseError α) : Unseen (Verif.liftParse x) := ofOut _
theorem liftS (x : Out SerializeError α) : Unseen (Verif.liftS x) := ofOut _

theorem bind {m : M α} {f : α → M β} (hm : Unseen m) (hf : ∀ a, Unseen (f a)) : Unseen (m >>= f) := by
  intro d o c h
  rw [SM.bind_apply, SM.bind_apply, hm d o c h]
  have hd := hm.data c
  match e : m c with
  | (.ok a, s) => rw [e] at hd; exact hf a d o s (by rw [hd]; exact h)
  | (.err _, s) => rfl
  | (.panic, s) => rfl

/-- looking at the connection is fine if the rest does not notice. -/
theorem get_bind {f : Conn → M β}
    (h1 : ∀ d o c, Alike d.capabilities c.data.capabilities → f (c.other d o) = f c) (h2 : ∀ c, Unseen (f c)) :
    Unseen (SM.get >>= f) := by
  intro d o c h
  show f (c.other d o) (c.other d o) = ((f c c).1, (f c c).2.other d o)
  rw [h1 d o c h]
  exact h2 c d o c h

theorem modify {f : Conn → Conn} (h : ∀ d o c, f (c.other d o) = (f c).other d o) : Unseen (SM.modify f : M Unit) := by
  intro d o c _
  show ((.ok (), f (c.other d o)) : Out Error Unit × Conn) = (.ok (), (f c).other d o)
  rw [h]

theorem ite {p : Prop} [Decidable p] {a b : M α} (ha : Unseen a) (hb : Unseen b) : Unseen (if p then a else b : M α) := by
  by_cases h : p
  · rw [if_pos h]; exact ha
  · rw [if_neg h]; exact hb

theorem attempt {m : M α} (hm : Unseen m) : Unseen (SM.attempt m) := by
  intro d o c h
  unfold SM.attempt
  rw [hm d o c h]
  match m c with
  | (.ok a, s) => rfl
  | (.err _, s) => rfl
  | (.panic, s) => rfl

/-- a number of rounds that is taken from the stream. -/
theorem fuel {f : Nat → M α} (g : Conn → Nat) (hg : ∀ d o c, g (c.other d o) = g c) (h : ∀ n, Unseen (f n)) :
    Unseen (fun c => f (g c) c) := by
  intro d o c ha
  show f (g (c.other d o)) (c.other d o) = _
  rw [hg]
  exact h _ d o c ha

/-! ### packets -/

theorem readExact (n : Nat) : Unseen (Verif.readExact n) := fun _ _ _ _ => rfl

theorem writeRaw (bs : Bytes) : Unseen (Verif.writeRaw bs) := by
  intro d o c _
  unfold Verif.writeRaw
  rw [show (c.other d o).wfaults = c.wfaults from rfl]
  match c.wfaults with
  | [] => rfl
  | none :: f => rfl
  | some (k, e) :: f => rfl

theorem readChunk (dst : Bytes) : Unseen (Verif.readChunk dst) := by
  unfold Verif.readChunk
  refine bind (readExact 4) fun m => ?_
  split
  · exact ite (pure _) (bind (readExact _) fun x => ite (pure _) (pure _))
  · exact crash

theorem readPacketLoop (n : Nat) (dst : Bytes) : Unseen (Verif.readPacketLoop n dst) := by
  induction n generalizing dst with
  | zero => exact crash
  | succ n ih =>
    unfold Verif.readPacketLoop
    refine bind (readChunk dst) fun x => ?_
    refine get_bind (fun _ _ _ _ => rfl) fun c => ?_
    exact ite (fail _) (bind (modify fun _ _ _ => rfl) fun _ => ite (pure _) (ih _))

theorem readPacket : Unseen Verif.readPacket :=
  fuel (f := fun n => Verif.readPacketLoop n []) (fun c => c.rx.length + 1) (fun _ _ _ => rfl) fun n => readPacketLoop n []

theorem writeChunks (bs : Bytes) : Unseen (Verif.writeChunks bs) := by
  induction h : bs.length using Nat.strongRecOn generalizing bs with
  | _ n ih =>
    unfold Verif.writeChunks
    split
    · exact pure _
    · rename_i hb
      refine get_bind (fun _ _ _ _ => rfl) fun c => bind (writeRaw _) fun _ => bind (writeRaw _) fun _ =>
        bind (modify fun _ _ _ => rfl) fun _ => ih _ ?_ _ rfl
      have : 0 < bs.length := List.length_pos_iff.mpr hb
      simp only [List.length_drop, MAX_PAYLOAD_LEN]
      omega

theorem writePacket (bs : Bytes) : Unseen (Verif.writePacket bs) := by
  unfold Verif.writePacket
  refine bind (writeChunks bs) fun _ => ite ?_ (pure _)
  exact get_bind (fun _ _ _ _ => rfl) fun c => bind (writeRaw _) fun _ => modify fun _ _ _ => rfl

/-! ### commands and answers -/

theorem decodeResponse (packet : Bytes) : Unseen (Verif.decodeResponse packet) := by
  unfold Verif.decodeResponse
  refine get_bind (fun d o c h => by dsimp only [Conn.other]; rw [readOk_alike h, errPacket_alike h]) fun c => ?_
  split
  · exact fail _
  · exact ite (bind (liftP _) fun _ => pure _) (ite (bind (liftP _) fun _ => pure _) (fail _))

theorem readResponse : Unseen Verif.readResponse := bind readPacket fun p => decodeResponse p

theorem okOrServerError (r : Except ErrPacket OkPacket) : Unseen (Verif.okOrServerError r) := by
  cases r
  · exact fail _
  · exact pure _

theorem cleanupLoop (n : Nat) : Unseen (Verif.cleanupLoop n) := by
  induction n with
  | zero => exact crash
  | succ n ih =>
    unfold Verif.cleanupLoop
    refine bind readPacket fun p => get_bind (fun d o c h => by dsimp only [Conn.other]; rw [isLast_alike h, readEof_alike h]) fun c => bind (ofOut _) fun last => ite ?_ ih
    exact bind (modify fun _ _ _ => rfl) fun _ => liftP _

theorem cleanup : Unseen Verif.cleanup := by
  intro d o c h
  unfold Verif.cleanup
  rw [show (c.other d o).pendingResult = c.pendingResult from rfl]
  split
  · exact bind (cleanupLoop (c.rx.length + 1)) (fun ok => pure (some ok)) d o c h
  · rfl

theorem executeCommand (cmd : Command) (data : Bytes) : Unseen (Verif.executeCommand cmd data) :=
  bind cleanup fun _ => bind (modify fun _ _ _ => rfl) fun _ => writePacket _

theorem writeCommand (bytes : Bytes) : Unseen (Verif.writeCommand bytes) :=
  bind cleanup fun _ => bind (modify fun _ _ _ => rfl) fun _ => writePacket _

theorem readColumnDefs (n : Nat) : Unseen (Verif.readColumnDefs n) := by
  induction n with
  | zero => exact pure _
  | succ n ih => exact bind readPacket fun p => bind (liftP _) fun _ => bind ih fun _ => pure _

theorem readColumns (n : Nat) : Unseen (Verif.readColumns n) := ite crash (readColumnDefs n)

theorem rsetRead : Unseen RSet.read := by
  unfold RSet.read
  refine bind readPacket fun p => get_bind (fun d o c h => by dsimp only [Conn.other]; rw [errPacket_alike h]) fun c => ?_
  have cols : Unseen ((do
      SM.modify fun c => { c with pendingResult := true }
      let n ← Verif.liftP (runP P.checkedEatLenencInt p)
      let cols ← Verif.readColumns n.toNat
      Pure.pure { columns := cols, okPacket := none }) : M RSet) :=
    bind (modify fun _ _ _ => rfl) fun _ => bind (liftP _) fun n => bind (readColumns _) fun _ => pure _
  split
  · exact ite (bind (decodeResponse _) fun r => bind (okOrServerError r) fun _ => pure _)
      (ite crash (ite (bind (liftP _) fun _ => fail _) cols))
  · exact cols

/-! ### result sets -/

theorem next (rd : RowReader R) (rs : RSet) : Unseen (rs.next rd) := by
  unfold RSet.next
  refine ite (pure _) (bind readPacket fun p => get_bind (fun d o c h => by dsimp only [Conn.other]; rw [isLast_alike h, readEof_alike h]) fun c => bind (ofOut _) fun last => ite ?_ ?_)
  · exact bind (liftP _) fun _ => bind (modify fun _ _ _ => rfl) fun _ => pure _
  · exact bind (liftP _) fun _ => bind (liftParse _) fun _ => pure _

theorem collectLoop (rd : RowReader R) (n : Nat) (rs : RSet) : Unseen (RSet.collectLoop rd n rs) := by
  induction n generalizing rs with
  | zero => exact crash
  | succ n ih =>
    unfold RSet.collectLoop
    refine bind (next rd rs) fun x => ?_
    obtain ⟨rs', r?⟩ := x
    cases r? with
    | none => exact pure _
    | some r => exact bind (ih _) fun _ => pure _

theorem collect (rd : RowReader R) (rs : RSet) : Unseen (rs.collect rd) :=
  fuel (f := fun n => RSet.collectLoop rd n rs) (fun c => c.rx.length + 2) (fun _ _ _ => rfl) fun n => collectLoop rd n rs

theorem drain (rd : RowReader R) (rs : RSet) : Unseen (rs.drain rd) := bind (collect rd rs) fun _ => pure _

theorem one (rd : RowReader R) (rs : RSet) : Unseen (rs.one rd) := by
  unfold RSet.one
  refine bind (attempt (next rd rs)) fun x => ?_
  split
  · exact bind (drain rd _) fun _ => pure _
  · exact bind (drain rd _) fun _ => fail _

theorem finish (rd : RowReader R) (rs : RSet) : Unseen (rs.finish rd) := by
  unfold RSet.finish
  split
  · exact pure _
  · refine bind (drain rd _) fun x => ?_
    split
    · exact pure _
    · exact crash

/-! ### statements -/

theorem query (sql : Str) : Unseen (Verif.query sql) := bind (executeCommand _ _) fun _ => rsetRead

theorem executeQuery (sql : Str) : Unseen (Verif.executeQuery sql) :=
  bind (executeCommand _ _) fun _ => bind readResponse fun r => okOrServerError r

theorem disconnect : Unseen Verif.disconnect := executeCommand _ _

theorem skipPackets (n : Nat) : Unseen (Verif.skipPackets n) := by
  induction n with
  | zero => exact pure _
  | succ n ih => exact bind readPacket fun _ => ih

theorem prepareStatement (sql : Str) : Unseen (Verif.prepareStatement sql) := by
  unfold Verif.prepareStatement
  refine bind (executeCommand _ _) fun _ => bind readPacket fun p => get_bind (fun d o c h => by dsimp only [Conn.other]; rw [errPacket_alike h]) fun c => ?_
  split
  · exact ite (bind (liftP _) fun _ => bind (skipPackets _) fun _ => pure _) (ite (bind (liftP _) fun _ => fail _) (fail _))
  · exact fail _

theorem sendPieces (id : UInt32) (i : Nat) (ps : List Bytes) : Unseen (Verif.sendPieces id i ps) := by
  induction ps with
  | nil => exact pure _
  | cons p ps ih => exact bind (writeCommand _) fun _ => ih

theorem sendLongData (id : UInt32) (i : Nat) (vs : List Value) : Unseen (Verif.sendLongData id i vs) := by
  induction vs generalizing i with
  | nil => exact pure _
  | cons v vs ih => exact bind (sendPieces id i _) fun _ => ih _

theorem sendExecute (id : UInt32) (vs : List Value) : Unseen (Verif.sendExecute id vs) :=
  bind (ofOut _) fun _ => ite (bind (sendLongData id 0 vs) fun _ => writeCommand _) (writeCommand _)

theorem stmtQuery (p : Prepared) (vs : List Value) : Unseen (p.query vs) :=
  ite (fail _) (bind (sendExecute p.id vs) fun _ => rsetRead)

theorem stmtExecute (p : Prepared) (vs : List Value) : Unseen (p.execute vs) :=
  ite (fail _) (bind (sendExecute p.id vs) fun _ => bind readResponse fun r => okOrServerError r)

/-! ### models -/

theorem plainValues (fs : List (Str × Option (Out SerializeError Value))) : Unseen (Verif.plainValues fs) := by
  induction fs with
  | nil => exact pure _
  | cons f fs ih =>
    match f with
    | (_, none) => exact ih
    | (n, some x) => exact bind (liftS x) fun _ => bind ih fun _ => pure _

theorem memberValues (field : Str) (fs : List (Str × Out SerializeError Value)) : Unseen (Verif.memberValues field fs) := by
  induction fs with
  | nil => exact pure _
  | cons f fs ih => exact bind (liftS f.2) fun _ => bind ih fun _ => pure _

theorem structValues (fs : List (Str × Option (List (Str × Out SerializeError Value)))) :
    Unseen (Verif.structValues fs) := by
  induction fs with
  | nil => exact pure _
  | cons f fs ih =>
    match f with
    | (_, none) => exact ih
    | (n, some x) => exact bind (memberValues n x) fun _ => bind ih fun _ => pure _

theorem executeInsert (table : Str) (vs : List NamedValue) : Unseen (Verif.executeInsert table vs) :=
  bind (prepareStatement _) fun p => bind (stmtExecute p _) fun _ => pure _

mutual
theorem insert : ∀ m : ActiveModel, Unseen m.insert
  | .mk t _ plain structs refs => by
    unfold ActiveModel.insert
    exact bind (plainValues plain) fun _ => bind (structValues structs) fun _ => bind (refValues refs) fun _ =>
      executeInsert t _

theorem refValues : ∀ r : ActiveRefs, Unseen (Verif.refValues r)
  | .nil => by unfold Verif.refValues; exact pure _
  | .set f v r => by unfold Verif.refValues; exact bind (refValues r) fun _ => pure _
  | .insert f m r => by unfold Verif.refValues; exact bind (insert m) fun _ => bind (refValues r) fun _ => pure _
  | .unset f r => by unfold Verif.refValues; exact refValues r
end

theorem update (id : Value) (primary : Str) (m : ActiveModel) : Unseen (m.update id primary) := by
  obtain ⟨t, a, plain, structs, refs⟩ := m
  unfold ActiveModel.update ActiveModel.intoValues
  refine bind (bind (plainValues plain) fun _ => bind (structValues structs) fun _ => bind (refValues refs) fun _ =>
    pure _) fun vs => ite ?_ (pure _)
  exact bind (prepareStatement _) fun p => bind (stmtExecute p _) fun _ => pure _

/-! ### migrations -/

theorem loadLoop (fp : FloatParse) (ms : List MigList) (n : Nat) (rs : RSet) (a : Version → List Str) :
    Unseen (Verif.loadLoop fp ms n rs a) := by
  induction n generalizing rs a with
  | zero => exact crash
  | succ n ih =>
    unfold Verif.loadLoop
    refine bind (next _ rs) fun x => ?_
    obtain ⟨rs', k?⟩ := x
    cases k? with
    | none => exact pure _
    | some k => exact ite (ih _ _) crash

theorem migratorOpen (debug : Bool) (fp : FloatParse) (ms : List MigList) : Unseen (Verif.migratorOpen debug fp ms) := by
  unfold Verif.migratorOpen
  refine ite crash (bind ?_ fun _ => ?_)
  · unfold ensureTable
    exact bind (query _) fun rs => bind (collect _ rs) fun _ => ite (bind (executeQuery _) fun _ => pure _) (pure _)
  · unfold loadTable
    exact bind (query _) fun rs => get_bind (fun _ _ _ _ => rfl) fun c => loadLoop fp ms _ rs _

end Unseen

/-! ### histories -/

/-- one after the other. -/
theorem Unseen.andThen {X Y Z : Type} {f : Conn → X × Conn} {g : X → Conn → Y × Conn} (k : X → Y → Z) (hf : Unseen f)
    (hg : ∀ x, Unseen (g x)) : Unseen fun c => (k (f c).1 (g (f c).1 (f c).2).1, (g (f c).1 (f c).2).2) := by
  intro d o c h
  dsimp only
  rw [hf d o c h]
  dsimp only
  rw [hg _ d o _ (by rw [hf.data c]; exact h)]

theorem Unseen.map {X Y : Type} {f : Conn → X × Conn} (k : X → Y) (hf : Unseen f) : Unseen fun c => (k (f c).1, (f c).2) := by
  intro d o c h
  dsimp only
  rw [hf d o c h]

theorem Unseen.still {X : Type} (x : X) : Unseen fun c => (x, c) := fun _ _ _ _ => rfl

/-- result_set.rs 101: the draining in `one`. -/
private def oneDrain {R : Type} (rd : RowReader R) (rs : RSet) :
    Out Error (RSet × Option R) → Conn → Option (Out Error (RSet × List R)) × Conn
  | .panic, c => (none, c)
  | .ok x, c => (some (x.1.collect rd c).1, (x.1.collect rd c).2)
  | .err _, c => (some (rs.collect rd c).1, (rs.collect rd c).2)

/-- the outcome of `one`. -/
private def oneResult {R : Type} (rs : RSet) (o : Out Error (RSet × Option R)) :
    Option (Out Error (RSet × List R)) → Out Error (Option R) × RSet
  | none => (.panic, rs)
  | some (.ok (rs2, _)) => (o.map' Prod.snd, rs2)
  | some (.err e) => (.err e, rsAfter rs o)
  | some .panic => (.panic, rsAfter rs o)

theorem Unseen.takeOne {R : Type} (rd : RowReader R) (rs : RSet) : Unseen (Verif.takeOne rd rs) := by
  have h : Verif.takeOne rd rs = fun c =>
      (oneResult rs (rs.next rd c).1 (oneDrain rd rs (rs.next rd c).1 (rs.next rd c).2).1,
        (oneDrain rd rs (rs.next rd c).1 (rs.next rd c).2).2) := by
    funext c
    unfold Verif.takeOne
    match rs.next rd c with
    | (.panic, c1) => rfl
    | (.ok x, c1) =>
      simp only [oneDrain, rsAfter]
      match x.1.collect rd c1 with
      | (.ok _, _) => rfl
      | (.err _, _) => rfl
      | (.panic, _) => rfl
    | (.err x, c1) =>
      simp only [oneDrain, rsAfter]
      match rs.collect rd c1 with
      | (.ok _, _) => rfl
      | (.err _, _) => rfl
      | (.panic, _) => rfl
  rw [h]
  refine Unseen.andThen (oneResult rs) (Unseen.next rd rs) (g := oneDrain rd rs) fun x => ?_
  cases x
  · exact Unseen.map some (Unseen.collect rd _)
  · exact Unseen.map some (Unseen.collect rd _)
  · exact Unseen.still _

theorem Unseen.take {R : Type} (rd : RowReader R) (rs : RSet) (t : Take) : Unseen (t.run rd rs) := by
  cases t
  · exact Unseen.map (fun x => (x.map' fun x => Got.row x.2, rsAfter rs x)) (Unseen.next rd rs)
  · exact Unseen.map (fun x => (x.map' fun x => Got.rows x.2, rsAfter rs x)) (Unseen.collect rd rs)
  · exact Unseen.map (fun x => (x.1.map' Got.row, x.2)) (Unseen.takeOne rd rs)
  · exact Unseen.map (fun x => (x.map' (Got.ended (R := R)), rs)) (Unseen.finish rd rs)

theorem Unseen.takeAll {R : Type} (rd : RowReader R) (ts : List Take) (rs : RSet) : Unseen (Verif.takeAll rd ts rs) := by
  induction ts generalizing rs with
  | nil => exact Unseen.still _
  | cons t ts ih =>
    cases t
    · exact Unseen.andThen (fun x y => x.1 :: y) (Unseen.take rd rs .next) fun x => ih x.2
    · exact Unseen.andThen (fun x y => x.1 :: y) (Unseen.take rd rs .collect) fun x => ih x.2
    · exact Unseen.andThen (fun x y => x.1 :: y) (Unseen.take rd rs .one) fun x => ih x.2
    · exact Unseen.map (fun x => [x.1]) (Unseen.take rd rs .finish)

/-- the calls on a result set that was opened. -/
private def takeIf {R : Type} (rd : RowReader R) (ts : List Take) : Out Error RSet → Conn → List (Out Error (Got R)) × Conn
  | .ok rs, c => takeAll rd ts rs c
  | _, c => ([], c)

theorem Unseen.useResult {R : Type} (rd : RowReader R) (ts : List Take) (m : M RSet) (hm : Unseen m) :
    Unseen (Verif.useResult rd ts m) := by
  have h : Verif.useResult rd ts m = fun c =>
      (Seen.result (m c).1 (takeIf rd ts (m c).1 (m c).2).1, (takeIf rd ts (m c).1 (m c).2).2) := by
    funext c
    unfold Verif.useResult
    match m c with
    | (.ok rs, c1) => rfl
    | (.err _, c1) => rfl
    | (.panic, c1) => rfl
  rw [h]
  refine Unseen.andThen (fun x y => Seen.result x y) hm (g := takeIf rd ts) fun x => ?_
  cases x
  · exact Unseen.takeAll rd ts _
  · exact Unseen.still _
  · exact Unseen.still _

theorem Unseen.step {R : Type} (x : Step R) : Unseen x.run := by
  cases x with
  | query sql rd ts => exact Unseen.useResult rd ts _ (Unseen.query sql)
  | executeQuery sql => exact Unseen.map _ (Unseen.executeQuery sql)
  | prepare sql => exact Unseen.map _ (Unseen.prepareStatement sql)
  | stmtQuery p vs rd ts => exact Unseen.useResult rd ts _ (Unseen.stmtQuery p vs)
  | stmtExecute p vs => exact Unseen.map _ (Unseen.stmtExecute p vs)

theorem Unseen.steps {R : Type} (xs : List (Step R)) : Unseen (runSteps xs) := by
  induction xs with
  | nil => exact Unseen.still _
  | cons x xs ih => exact Unseen.andThen (fun x y => x :: y) (Unseen.step x) fun _ => ih

end Verif

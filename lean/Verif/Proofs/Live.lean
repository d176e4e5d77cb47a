import Verif.Props.C92_Time

/-!
# Programs that do not spin

Whatever the polls are, the program ends or is suspended: it never goes round without asking the stream.
-/

namespace Verif

/-- the program gets somewhere. -/
def Live {α : Type} (p : Code α) : Prop := ∀ (T : Nat) (l : Loc) (es : List Poll), ∃ d r, Exec T p l es d r

/-- it uses up a poll before it goes round again. -/
def EatsPoll {σ α : Type} (p : Code (σ ⊕ α)) : Prop :=
  ∀ {T : Nat} {l : Loc} {es : List Poll} {d : Did} {s : σ} {l' : Loc} {rest : List Poll},
    Exec T p l es d (.done (.ok (.inl s)) l' rest) → rest.length < es.length

/-- it uses up a poll before it succeeds. -/
def TakesPoll {α : Type} (p : Code α) : Prop :=
  ∀ {T : Nat} {l : Loc} {es : List Poll} {d : Did} {a : α} {l' : Loc} {rest : List Poll},
    Exec T p l es d (.done (.ok a) l' rest) → rest.length < es.length

theorem Exec.shorter {α : Type} {p : Code α} {T : Nat} {l : Loc} {es : List Poll} {d : Did} {o : Out Error α} {l' : Loc}
    {rest : List Poll} (h : Exec T p l es d (.done o l' rest)) : rest.length ≤ es.length := by
  obtain ⟨pre, rfl, -⟩ := (C92_clock p h).1 _ _ _ rfl
  simp

theorem TakesPoll.bind {α β : Type} {m : Code β} {k : β → Code α} (h : TakesPoll m) : TakesPoll (m >>= k) := by
  intro T l es d a l' rest hx
  cases hx with
  | ok x y => exact Nat.lt_of_le_of_lt (Exec.shorter y) (h x)

theorem TakesPoll.eats {σ α : Type} {p : Code (σ ⊕ α)} (h : TakesPoll p) : EatsPoll p := fun hx => h hx

theorem TakesPoll.read (n : Nat) (hn : n ≠ 0) : TakesPoll (.read n) := by
  intro T l es d a l' rest hx
  generalize hr : Ran.done (Out.ok a) l' rest = r at hx
  cases hx with
  | wait h => cases hr
  | done h =>
    obtain ⟨-, -, rfl⟩ := Ran.done.inj hr
    clear hr
    cases es with
    | nil => unfold pollRead at h; rw [if_neg hn] at h; cases h
    | cons p es =>
      have key : ∀ (es : List Poll) (n e : Nat) {r rest tape t}, pollRead T es n e = (.done r rest, tape, t) →
          rest.length ≤ es.length := by
        intro es n e r rest tape t h
        obtain ⟨pre, rfl⟩ := pollRead_rest _ _ _ _ h
        simp
      unfold pollRead at h
      rw [if_neg hn] at h
      split at h
      · split at h
        · cases h; simp
        · split at h
          · rename_i hx; cases h; exact Nat.lt_succ_of_le (key _ _ _ hx)
          · rename_i heq; cases h; exact Nat.lt_succ_of_le (key _ _ _ heq)
      · cases h; simp
      · cases h; simp
      · split at h
        · cases h; simp
        · exact Nat.lt_succ_of_le (key _ _ _ h)
      · split at h
        · cases h; simp
        · exact Nat.lt_succ_of_le (key _ _ _ h)

theorem TakesPoll.loop {σ α : Type} {body : σ → Code (σ ⊕ α)} (h : ∀ s, TakesPoll (body s)) (s : σ) : TakesPoll (.loop body s) := by
  intro T l es d a l' rest hx
  have hx : Act.Loop (fun s => Exec T (body s)) s l es d (.done (.ok a) l' rest) := hx
  cases hx with
  | @again _ s' _ l1 _ es1 _ d' _ x y =>
    have y : Exec T (.loop body s') l1 es1 d' (.done (.ok a) l' rest) := y
    exact Nat.lt_of_le_of_lt (Exec.shorter y) (h _ x)
  | stop x => exact h _ x

theorem Live.out {α : Type} (o : Out Error α) : Live (.out o) := fun _ _ _ => ⟨_, _, rfl, rfl⟩
theorem Live.pure {α : Type} (a : α) : Live (Pure.pure a : Code α) := fun _ _ _ => ⟨_, _, rfl, rfl⟩
theorem Live.get : Live .get := fun _ _ _ => ⟨_, _, rfl, rfl⟩
theorem Live.modify (f : Loc → Loc) : Live (.modify f) := fun _ _ _ => ⟨_, _, rfl, rfl⟩

theorem Live.read (n : Nat) : Live (.read n) := by
  intro T l es
  rcases h : pollRead T es n 0 with ⟨x, tape, t⟩
  cases x with
  | done r rest => exact ⟨_, _, Act.Read.done h⟩
  | waiting => exact ⟨_, _, Act.Read.wait h⟩

theorem Live.write (bs : Bytes) : Live (.write bs) := by
  intro T l es
  rcases h : pollWrite T es bs 0 with ⟨x, w, t⟩
  cases x with
  | done r rest => exact ⟨_, _, Act.Write.done h⟩
  | waiting => exact ⟨_, _, Act.Write.wait h⟩

theorem Live.bind {α β : Type} {m : Code β} {k : β → Code α} (h1 : Live m) (h2 : ∀ b, Live (k b)) : Live (m >>= k) := by
  intro T l es
  obtain ⟨d, r, h⟩ := h1 T l es
  cases r with
  | waiting w l1 => exact ⟨_, _, Act.Bind.wait h⟩
  | done o l1 es1 =>
    cases o with
    | ok b =>
      obtain ⟨d', r', h'⟩ := h2 b T l1 es1
      exact ⟨_, _, Act.Bind.ok h h'⟩
    | err e => exact ⟨_, _, Act.Bind.err h⟩
    | panic => exact ⟨_, _, Act.Bind.panic h⟩

theorem Live.attempt {α : Type} {m : Code α} (h1 : Live m) : Live (.attempt m) := by
  intro T l es
  obtain ⟨d, r, h⟩ := h1 T l es
  cases r with
  | waiting w l1 => exact ⟨_, _, Act.Attempt.wait h⟩
  | done o l1 es1 =>
    cases o with
    | ok b => exact ⟨_, _, Act.Attempt.ok h⟩
    | err e => exact ⟨_, _, Act.Attempt.err h⟩
    | panic => exact ⟨_, _, Act.Attempt.panic h⟩

theorem Live.loop {σ α : Type} {body : σ → Code (σ ⊕ α)} (h1 : ∀ s, Live (body s)) (h2 : ∀ s, EatsPoll (body s)) (s : σ) :
    Live (.loop body s) := by
  intro T l es
  induction hn : es.length using Nat.strong_induction_on generalizing s l es with
  | _ n ih =>
    subst hn
    obtain ⟨d, r, h⟩ := h1 s T l es
    cases r with
    | waiting w l1 => exact ⟨_, _, Act.Loop.wait h⟩
    | done o l1 es1 =>
      cases o with
      | ok b =>
        cases b with
        | inl s' =>
          obtain ⟨d', r', h'⟩ := ih _ (h2 s h) s' l1 es1 rfl
          exact ⟨_, _, Act.Loop.again h h'⟩
        | inr a => exact ⟨_, _, Act.Loop.stop h⟩
      | err e => exact ⟨_, _, Act.Loop.err h⟩
      | panic => exact ⟨_, _, Act.Loop.panic h⟩

/-- one step of a proof that a program is live. -/
macro "live" : tactic => `(tactic| repeat' first
  | exact Live.get | exact Live.out _ | exact Live.pure _ | exact Live.modify _ | exact Live.read _ | exact Live.write _
  | assumption | refine Live.bind ?_ fun _ => ?_ | split | dsimp only)

namespace Live

open Async

theorem readChunk (dst : Bytes) : Live (Async.readChunk dst) := by unfold Async.readChunk; live
theorem packetTurn (dst : Bytes) : Live (Async.packetTurn dst) := by
  unfold Async.packetTurn
  have := readChunk dst
  live

theorem uses_packetTurn (dst : Bytes) : TakesPoll (Async.packetTurn dst) := by
  unfold Async.packetTurn Async.readChunk
  exact TakesPoll.bind (TakesPoll.bind (TakesPoll.read 4 (by decide)))

theorem readPacket : Live Async.readPacket := Live.loop packetTurn (fun s => TakesPoll.eats (uses_packetTurn s)) _

theorem uses_readPacket : TakesPoll Async.readPacket := TakesPoll.loop uses_packetTurn _

theorem writeChunks (bs : Bytes) : Live (Async.writeChunks bs) := by
  induction hn : bs.length using Nat.strong_induction_on generalizing bs with
  | _ n ih =>
    subst hn
    rw [Async.writeChunks]
    split
    · live
    · rename_i h
      have hb : 0 < bs.length := List.length_pos_iff.mpr h
      have := ih (bs.drop (min bs.length MAX_PAYLOAD_LEN)).length
        (by rw [List.length_drop]; unfold MAX_PAYLOAD_LEN; omega) _ rfl
      live

theorem writePacket (bs : Bytes) : Live (Async.writePacket bs) := by
  unfold Async.writePacket
  have := writeChunks bs
  live

theorem decodeResponse (p : Bytes) : Live (Async.decodeResponse p) := by unfold Async.decodeResponse; live
theorem readResponse : Live Async.readResponse := readPacket.bind decodeResponse
theorem okOrServerError (r : Except ErrPacket OkPacket) : Live (Async.okOrServerError r) := by
  unfold Async.okOrServerError; live
theorem cleanup : Live Async.cleanup := by
  unfold Async.cleanup
  have : Live (Code.loop Async.cleanupTurn ()) := by
    refine Live.loop (fun _ => ?_) (fun _ => TakesPoll.eats (TakesPoll.bind uses_readPacket)) _
    have := readPacket
    live
  live
theorem executeCommand (cmd : Command) (data : Bytes) : Live (Async.executeCommand cmd data) := by
  unfold Async.executeCommand
  have := cleanup
  have := writePacket (cmd.toByte :: data)
  live
theorem writeCommand (bs : Bytes) : Live (Async.writeCommand bs) := by
  unfold Async.writeCommand
  have := cleanup
  have := writePacket bs
  live
theorem readColumnDefs (n : Nat) : Live (Async.readColumnDefs n) := by
  induction n with
  | zero => exact Live.pure _
  | succ n ih => unfold Async.readColumnDefs; have := readPacket; live
theorem readColumns (n : Nat) : Live (Async.readColumns n) := by
  unfold Async.readColumns
  have := readColumnDefs n
  live
theorem readSet : Live Async.readSet := by
  unfold Async.readSet
  have := readPacket
  repeat' first
    | exact decodeResponse _ | exact okOrServerError _ | exact readColumns _
    | exact Live.get | exact Live.out _ | exact Live.pure _ | exact Live.modify _
    | assumption | refine Live.bind ?_ fun _ => ?_ | split
theorem next {R : Type} (rd : RowReader R) (rs : RSet) : Live (Async.next rd rs) := by
  unfold Async.next
  have := readPacket
  live

theorem uses_next {R : Type} (rd : RowReader R) (rs : RSet) {T : Nat} {l : Loc} {es : List Poll} {d : Did} {rs' : RSet}
    {x : R} {l' : Loc} {rest : List Poll}
    (h : Exec T (Async.next rd rs) l es d (.done (.ok (rs', some x)) l' rest)) : rest.length < es.length := by
  unfold Async.next at h
  split at h
  · have h := h.2
    simp at h
  · exact TakesPoll.bind uses_readPacket h

theorem collect {R : Type} (rd : RowReader R) (rs : RSet) : Live (Async.collect rd rs) := by
  refine Live.loop (fun x => ?_) (fun x => ?_) _
  · unfold Async.collectTurn
    have := next rd x.1
    live
  · intro T l es d s l' rest h
    unfold Async.collectTurn at h
    cases h with
    | ok h1 h2 =>
      rename_i b
      obtain ⟨rs', r?⟩ := b
      have hs := Exec.shorter h2
      cases r? with
      | none => have h2 := h2.2; simp at h2
      | some r => exact Nat.lt_of_le_of_lt hs (uses_next rd x.1 h1)
theorem drain {R : Type} (rd : RowReader R) (rs : RSet) : Live (Async.drain rd rs) := by
  unfold Async.drain
  have := collect rd rs
  live
theorem one {R : Type} (rd : RowReader R) (rs : RSet) : Live (Async.one rd rs) := by
  unfold Async.one
  refine Live.bind (Live.attempt (next rd rs)) fun x => ?_
  split
  · refine Live.bind (drain rd _) fun _ => ?_; live
  · refine Live.bind (drain rd _) fun _ => ?_; live
theorem finish {R : Type} (rd : RowReader R) (rs : RSet) : Live (Async.finish rd rs) := by
  unfold Async.finish
  have := drain rd rs
  live
theorem query (sql : Str) : Live (Async.query sql) := (executeCommand _ _).bind fun _ => readSet
theorem executeQuery (sql : Str) : Live (Async.executeQuery sql) :=
  (executeCommand _ _).bind fun _ => readResponse.bind okOrServerError
theorem disconnect : Live Async.disconnect := executeCommand _ _
theorem skipPackets (n : Nat) : Live (Async.skipPackets n) := by
  induction n with
  | zero => exact Live.pure _
  | succ n ih => unfold Async.skipPackets; have := readPacket; live
theorem prepareStatement (sql : Str) : Live (Async.prepareStatement sql) := by
  unfold Async.prepareStatement
  have := readPacket
  repeat' first
    | exact executeCommand _ _ | exact skipPackets _
    | exact Live.get | exact Live.out _ | exact Live.pure _ | exact Live.modify _
    | assumption | refine Live.bind ?_ fun _ => ?_ | split
theorem sendPieces (id : UInt32) (i : Nat) (ps : List Bytes) : Live (Async.sendPieces id i ps) := by
  induction ps with
  | nil => exact Live.pure _
  | cons p ps ih => unfold Async.sendPieces; exact (writeCommand _).bind fun _ => ih
theorem sendLongData (id : UInt32) (i : Nat) (vs : List Value) : Live (Async.sendLongData id i vs) := by
  induction vs generalizing i with
  | nil => exact Live.pure _
  | cons v vs ih => unfold Async.sendLongData; exact (sendPieces _ _ _).bind fun _ => ih _
theorem sendExecute (id : UInt32) (params : List Value) : Live (Async.sendExecute id params) := by
  unfold Async.sendExecute
  have := sendLongData id 0 params
  repeat' first
    | exact writeCommand _
    | exact Live.out _ | exact Live.pure _
    | assumption | refine Live.bind ?_ fun _ => ?_ | split
theorem stmtQuery (p : Prepared) (vs : List Value) : Live (Async.stmtQuery p vs) := by
  unfold Async.stmtQuery
  have := sendExecute p.id vs
  have := readSet
  live
theorem stmtExecute (p : Prepared) (vs : List Value) : Live (Async.stmtExecute p vs) := by
  unfold Async.stmtExecute
  have := sendExecute p.id vs
  have := readResponse.bind okOrServerError
  live
theorem storeLimit (n : Option Nat) : Live (Async.storeLimit n) := by cases n <;> (unfold Async.storeLimit; live)
theorem readSettings (fp : FloatParse) : Live (Async.readSettings fp) := by
  unfold Async.readSettings Async.askLimit
  repeat' first
    | exact query _ | exact next _ _ | exact storeLimit _
    | exact Live.get | exact Live.out _ | exact Live.pure _
    | refine Live.bind ?_ fun _ => ?_ | split
theorem authFailure {α : Type} (p : Bytes) : Live (Async.authFailure p : Code α) := by unfold Async.authFailure; live
theorem fetchKey : Live Async.fetchKey := by
  unfold Async.fetchKey
  have := readPacket
  have := writePacket [2]
  live
theorem sendPassword (cr : Crypto) : Live (Async.sendPassword cr) := by
  unfold Async.sendPassword
  have := fetchKey
  repeat' first
    | exact writePacket _
    | exact Live.get | exact Live.out _ | exact Live.pure _
    | assumption | refine Live.bind ?_ fun _ => ?_ | split
theorem fullAuth (cr : Crypto) : Live (Async.fullAuth cr) := by
  unfold Async.fullAuth Async.readVerdict
  have := sendPassword cr
  have := readPacket
  live
theorem switchAuth (cr : Crypto) (sw : AuthSwitch) : Live (Async.switchAuth cr sw) := by
  unfold Async.switchAuth
  repeat' first
    | exact writePacket _
    | exact Live.get | exact Live.out _ | exact Live.pure _ | exact Live.modify _
    | refine Live.bind ?_ fun _ => ?_ | split
theorem continueAuth (cr : Crypto) (n : Nat) : Live (Async.continueAuth cr n) := by
  induction n with
  | zero => exact Live.out _
  | succ n ih =>
    unfold Async.continueAuth
    have := readPacket
    have := fullAuth cr
    repeat' first
      | exact authFailure _ | exact switchAuth _ _
      | exact Live.get | exact Live.out _ | exact Live.pure _
      | assumption | refine Live.bind ?_ fun _ => ?_ | split
theorem login (cr : Crypto) (alnum : Char → Bool) : Live (Async.login cr alnum) := by
  unfold Async.login
  refine Live.bind ?_ fun _ => Live.bind ?_ fun _ => continueAuth cr 2
  · unfold Async.handleHandshake
    have := readPacket
    live
  · unfold Async.doHandshakeResponse
    repeat' first
      | exact writePacket _
      | exact Live.get | exact Live.out _
      | refine Live.bind ?_ fun _ => ?_
theorem connect (cr : Crypto) (alnum : Char → Bool) (fp : FloatParse) : Live (Async.connect cr alnum fp) :=
  (login cr alnum).bind fun _ => readSettings fp
theorem plainValues (fs : List (Str × Option (Out SerializeError Value))) : Live (Async.plainValues fs) := by
  induction fs with
  | nil => exact Live.pure _
  | cons f fs ih =>
    obtain ⟨n, x⟩ := f
    cases x <;> (unfold Async.plainValues; live)
theorem memberValues (f : Str) (fs : List (Str × Out SerializeError Value)) : Live (Async.memberValues f fs) := by
  induction fs with
  | nil => exact Live.pure _
  | cons x fs ih => obtain ⟨n, x⟩ := x; unfold Async.memberValues; live
theorem structValues (fs : List (Str × Option (List (Str × Out SerializeError Value)))) : Live (Async.structValues fs) := by
  induction fs with
  | nil => exact Live.pure _
  | cons f fs ih =>
    obtain ⟨n, x⟩ := f
    cases x with
    | none => unfold Async.structValues; live
    | some ms => unfold Async.structValues; have := memberValues n ms; live
theorem executeInsert (t : Str) (vs : List NamedValue) : Live (Async.executeInsert t vs) := by
  unfold Async.executeInsert
  exact (prepareStatement _).bind fun _ => (stmtExecute _ _).bind fun _ => Live.pure _

mutual
theorem insert : (m : ActiveModel) → Live (Async.insert m)
  | .mk t p plain structs refs => by
    unfold Async.insert
    exact (plainValues _).bind fun _ => (structValues _).bind fun _ => (refValues refs).bind fun _ => executeInsert _ _
theorem refValues : (r : ActiveRefs) → Live (Async.refValues r)
  | .nil => by unfold Async.refValues; exact Live.pure _
  | .set f v r => by unfold Async.refValues; exact (refValues r).bind fun _ => Live.pure _
  | .insert f m r => by
    unfold Async.refValues
    exact (insert m).bind fun _ => (refValues r).bind fun _ => Live.pure _
  | .unset _ r => by unfold Async.refValues; exact refValues r
end

theorem update (id : Value) (primary : Str) (m : ActiveModel) : Live (Async.update id primary m) := by
  unfold Async.update
  refine Live.bind ?_ fun _ => ?_
  · cases m
    unfold Async.intoValues
    exact (plainValues _).bind fun _ => (structValues _).bind fun _ => (refValues _).bind fun _ => Live.pure _
  · split
    · exact (prepareStatement _).bind fun _ => (stmtExecute _ _).bind fun _ => Live.pure _
    · exact Live.pure _

theorem migratorOpen (debug : Bool) (fp : FloatParse) (ms : List MigList) : Live (Async.migratorOpen debug fp ms) := by
  unfold Async.migratorOpen
  split
  · exact Live.out _
  · refine Live.bind ?_ fun _ => ?_
    · unfold Async.ensureTable
      refine (query _).bind fun _ => (collect _ _).bind fun x => ?_
      dsimp only
      split
      · exact (executeQuery _).bind fun _ => Live.pure _
      · exact Live.pure _
    · unfold Async.loadTable
      refine (query _).bind fun _ => Live.loop (fun x => ?_) (fun x => ?_) _
      · unfold Async.loadTurn
        have := next (textReader fp migrationOf) x.1
        live
      · intro T l es d s l' rest h
        unfold Async.loadTurn at h
        cases h with
        | ok h1 h2 =>
          rename_i b
          obtain ⟨rs', k?⟩ := b
          have hs := Exec.shorter h2
          cases k? with
          | none => have h2 := h2.2; simp at h2
          | some r => exact Nat.lt_of_le_of_lt hs (uses_next _ x.1 h1)

theorem readSettingsRel (fp : FloatParse) : Live (Async.readSettingsRel fp) := by
  unfold Async.readSettingsRel Async.askLimitRel
  repeat' first
    | exact query _ | exact next _ _ | exact storeLimit _
    | exact Live.get | exact Live.out _ | exact Live.pure _
    | refine Live.bind ?_ fun _ => ?_ | split

theorem loginRel (cr : Crypto) (alnum : Char → Bool) : Live (Async.loginRel cr alnum) := by
  unfold Async.loginRel
  refine Live.bind ?_ fun _ => Live.bind ?_ fun _ => continueAuth cr 2
  · unfold Async.handleHandshakeRel
    have := readPacket
    live
  · unfold Async.doHandshakeResponse
    repeat' first
      | exact writePacket _
      | exact Live.get | exact Live.out _
      | refine Live.bind ?_ fun _ => ?_

theorem connectRel (cr : Crypto) (alnum : Char → Bool) (fp : FloatParse) : Live (Async.connectRel cr alnum fp) :=
  (loginRel cr alnum).bind fun _ => readSettingsRel fp

theorem migratorOpenRel (fp : FloatParse) (ms : List MigList) : Live (Async.migratorOpenRel fp ms) := by
  unfold Async.migratorOpenRel
  refine Live.bind ?_ fun _ => ?_
  · unfold Async.ensureTableRel
    refine (query _).bind fun _ => (collect _ _).bind fun x => ?_
    dsimp only
    split
    · exact (executeQuery _).bind fun _ => Live.pure _
    · exact Live.pure _
  · unfold Async.loadTableRel
    refine (query _).bind fun _ => Live.loop (fun x => ?_) (fun x => ?_) _
    · unfold Async.loadTurnRel
      have := next (textReaderRel fp migrationOf) x.1
      live
    · intro T l es d s l' rest h
      unfold Async.loadTurnRel at h
      cases h with
      | ok h1 h2 =>
        rename_i b
        obtain ⟨rs', k?⟩ := b
        have hs := Exec.shorter h2
        cases k? with
        | none => have h2 := h2.2; simp at h2
        | some r => exact Nat.lt_of_le_of_lt hs (uses_next _ x.1 h1)

theorem call {α : Type} {p : Code α} {m : M α} (h : Spec.AnyFuture p m) : Live p := by
  cases h with
  | one rd rs => exact one rd rs
  | call h =>
    cases h with
    | connect cr alnum fp => exact connect cr alnum fp
    | disconnect => exact disconnect
    | query sql => exact query sql
    | executeQuery sql => exact executeQuery sql
    | prepare sql => exact prepareStatement sql
    | stmtQuery p vs => exact stmtQuery p vs
    | stmtExecute p vs => exact stmtExecute p vs
    | next rd rs => exact next rd rs
    | collect rd rs => exact collect rd rs
    | finish rd rs => exact finish rd rs
    | insert m => exact insert m
    | update id primary m => exact update id primary m
    | migrator debug fp ms => exact migratorOpen debug fp ms
    | connectRel cr alnum fp => exact connectRel cr alnum fp
    | migratorRel fp ms => exact migratorOpenRel fp ms

end Live

end Verif

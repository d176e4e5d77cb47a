import Verif.Model.Api
import Verif.Model.Active
import Verif.Model.Raw
import Verif.Model.Debug

/-!
# Errors of the server that are reported have been decoded from a packet
-/

namespace Verif

/-- the packet was decoded from some bytes. -/
def Decoded (p : ErrPacket) : Prop := ∃ caps bs, runP (ErrPacket.deserialize caps) bs = .ok p

/-- an error of the server was decoded. -/
def Genuine : Error → Prop
  | .server p => Decoded p
  | _ => True

/-- results have `V`, errors are genuine. -/
def Reports {α : Type} (V : α → Prop) (m : M α) : Prop := ∀ c,
  (∀ a c', m c = (.ok a, c') → V a) ∧ ∀ e c', m c = (.err e, c') → Genuine e

abbrev Any {α : Type} : α → Prop := fun _ => True

theorem Reports.any {α : Type} {V : α → Prop} {m : M α} (h : Reports V m) : Reports Any m :=
  fun c => ⟨fun _ _ _ => trivial, (h c).2⟩

theorem Reports.pure {α : Type} {V : α → Prop} {a : α} (h : V a) : Reports V (Pure.pure a : M α) :=
  fun c => ⟨fun _ _ e => (by cases e; exact h), fun _ _ e => by cases e⟩

theorem Reports.fail {α : Type} {V : α → Prop} {e : Error} (h : Genuine e) : Reports V (SM.fail e : M α) :=
  fun c => ⟨fun _ _ e => (by cases e), fun _ _ e => by cases e; exact h⟩

theorem Reports.crash {α : Type} {V : α → Prop} : Reports V (SM.crash : M α) :=
  fun c => ⟨fun _ _ e => (by cases e), fun _ _ e => by cases e⟩

theorem Reports.get : Reports Any (SM.get : M Conn) :=
  fun c => ⟨fun _ _ _ => trivial, fun _ _ e => by cases e⟩

theorem Reports.modify (f : Conn → Conn) : Reports Any (SM.modify f : M Unit) :=
  fun c => ⟨fun _ _ _ => trivial, fun _ _ e => by cases e⟩

theorem Reports.ofOut {α : Type} {V : α → Prop} {x : Out Error α} (h : ∀ a, x = .ok a → V a)
    (h' : ∀ e, x = .err e → Genuine e) : Reports V (SM.ofOut x : M α) :=
  fun c => ⟨fun a _ e => h a (congrArg Prod.fst e), fun e' _ e => h' e' (congrArg Prod.fst e)⟩

theorem Reports.bind {α β : Type} {V : α → Prop} {W : β → Prop} {m : M α} {f : α → M β} (h : Reports V m)
    (k : ∀ a, V a → Reports W (f a)) : Reports W (m >>= f) := by
  intro c
  rcases hm : m c with ⟨o, c1⟩
  cases o with
  | ok a =>
    rw [SM.bind_of_ok hm]
    exact k a ((h c).1 a c1 hm) c1
  | err e =>
    rw [SM.bind_of_err hm]
    exact ⟨fun _ _ e => (by cases e), fun _ _ e' => by cases e'; exact (h c).2 e c1 hm⟩
  | panic =>
    rw [SM.bind_of_panic hm]
    exact ⟨fun _ _ e => (by cases e), fun _ _ e => by cases e⟩

theorem Reports.liftP {α : Type} {V : α → Prop} {x : Out ProtocolError α} (h : ∀ a, x = .ok a → V a) :
    Reports V (Verif.liftP x : M α) := by
  cases x with
  | ok a => exact Reports.pure (h a rfl)
  | err e => exact Reports.fail trivial
  | panic => exact Reports.crash

theorem Reports.liftP' {α : Type} {x : Out ProtocolError α} : Reports Any (Verif.liftP x : M α) :=
  Reports.liftP fun _ _ => trivial

theorem Reports.liftParse {α : Type} {x : Out ParseError α} : Reports Any (Verif.liftParse x : M α) := by
  cases x with
  | ok a => exact Reports.pure trivial
  | err e => exact Reports.fail trivial
  | panic => exact Reports.crash

theorem Reports.liftS {α : Type} {x : Out SerializeError α} : Reports Any (Verif.liftS x : M α) := by
  cases x with
  | ok a => exact Reports.pure trivial
  | err e => exact Reports.fail trivial
  | panic => exact Reports.crash

theorem Reports.mapErr {ε α : Type} {x : Out ε α} {f : ε → Error} (h : ∀ e, Genuine (f e)) :
    Reports Any (SM.ofOut (x.mapErr f) : M α) := by
  cases x with
  | ok a => exact Reports.pure trivial
  | err e => exact Reports.fail (h e)
  | panic => exact Reports.crash

theorem Reports.readExact (n : Nat) : Reports Any (Verif.readExact n) := by
  intro c
  refine ⟨fun _ _ _ => trivial, fun e c' h => ?_⟩
  have h1 : (takeRx n c.rx).1.mapErr (fun k => Error.protocol (.io k)) = .err e := congrArg Prod.fst h
  cases hx : (takeRx n c.rx).1 with
  | ok a => rw [hx] at h1; cases h1
  | err k => rw [hx] at h1; cases h1; trivial
  | panic => rw [hx] at h1; cases h1

theorem Reports.writeRaw (bs : Bytes) : Reports Any (Verif.writeRaw bs) := by
  intro c
  refine ⟨fun _ _ _ => trivial, fun e c' h => ?_⟩
  unfold Verif.writeRaw at h
  split at h <;> cases h
  trivial

theorem Reports.readChunk (dst : Bytes) : Reports Any (Verif.readChunk dst) := by
  unfold Verif.readChunk
  refine (Reports.readExact 4).bind fun m _ => ?_
  split
  · dsimp only
    split
    · exact Reports.pure trivial
    · refine (Reports.readExact _).bind fun _ _ => ?_
      split <;> exact Reports.pure trivial
  · exact Reports.crash

theorem Reports.readPacketLoop : ∀ fuel dst, Reports Any (Verif.readPacketLoop fuel dst)
  | 0, _ => Reports.crash
  | fuel + 1, dst => by
    unfold Verif.readPacketLoop
    refine (Reports.readChunk dst).bind fun x _ => ?_
    refine Reports.get.bind fun c _ => ?_
    split
    · exact Reports.fail trivial
    · refine (Reports.modify _).bind fun _ _ => ?_
      split
      · exact Reports.pure trivial
      · exact Reports.readPacketLoop fuel _

theorem Reports.readPacket : Reports Any Verif.readPacket :=
  fun c => Reports.readPacketLoop _ _ c

theorem Reports.writeChunks (bs : Bytes) : Reports Any (Verif.writeChunks bs) := by
  induction bs using Verif.writeChunks.induct with
  | case1 => unfold Verif.writeChunks; exact Reports.pure trivial
  | case2 bs hne n ih =>
    unfold Verif.writeChunks
    rw [dif_neg hne]
    refine Reports.get.bind fun c _ => ?_
    refine (Reports.writeRaw _).bind fun _ _ => (Reports.writeRaw _).bind fun _ _ => (Reports.modify _).bind fun _ _ => ?_
    exact ih

theorem Reports.writePacket (bs : Bytes) : Reports Any (Verif.writePacket bs) := by
  unfold Verif.writePacket
  refine (Reports.writeChunks bs).bind fun _ _ => ?_
  split
  · exact Reports.get.bind fun _ _ => (Reports.writeRaw _).bind fun _ _ => Reports.modify _
  · exact Reports.pure trivial

/-- what a response is, if it is an error. -/
def GoodResponse : Except ErrPacket OkPacket → Prop
  | .error p => Decoded p
  | .ok _ => True

theorem Reports.decodeResponse (packet : Bytes) : Reports GoodResponse (Verif.decodeResponse packet) := by
  unfold Verif.decodeResponse
  refine Reports.get.bind fun c _ => ?_
  split
  · exact Reports.fail trivial
  · split
    · exact Reports.liftP'.bind fun _ _ => Reports.pure trivial
    · split
      · exact (Reports.liftP (V := Decoded) fun a h => ⟨_, _, h⟩).bind fun a ha => Reports.pure ha
      · exact Reports.fail trivial

theorem Reports.readResponse : Reports GoodResponse Verif.readResponse :=
  Reports.readPacket.bind fun p _ => Reports.decodeResponse p

theorem Reports.okOrServerError {r : Except ErrPacket OkPacket} (h : GoodResponse r) :
    Reports Any (Verif.okOrServerError r) := by
  cases r with
  | ok a => exact Reports.pure trivial
  | error p => exact Reports.fail h

theorem Reports.isLast (caps : UInt32) (p : Bytes) : Reports Any (SM.ofOut (Verif.isLast caps p) : M Bool) := by
  refine Reports.ofOut (fun _ _ => trivial) fun e h => ?_
  unfold Verif.isLast at h
  split at h
  · cases h
  · split at h <;> cases h

theorem Reports.cleanupLoop : ∀ fuel, Reports Any (Verif.cleanupLoop fuel)
  | 0 => Reports.crash
  | fuel + 1 => by
    unfold Verif.cleanupLoop
    refine Reports.readPacket.bind fun p _ => Reports.get.bind fun c _ => (Reports.isLast _ _).bind fun l _ => ?_
    split
    · exact (Reports.modify _).bind fun _ _ => Reports.liftP'
    · exact Reports.cleanupLoop fuel

theorem Reports.cleanup : Reports Any Verif.cleanup := by
  intro c
  unfold Verif.cleanup
  split
  · exact ((Reports.cleanupLoop _).bind (W := Any) fun _ _ => Reports.pure trivial) c
  · exact ⟨fun _ _ _ => trivial, fun _ _ e => by cases e⟩

theorem Reports.executeCommand (cmd : Command) (data : Bytes) : Reports Any (Verif.executeCommand cmd data) :=
  Reports.cleanup.bind fun _ _ => (Reports.modify _).bind fun _ _ => Reports.writePacket _

theorem Reports.writeCommand (b : Bytes) : Reports Any (Verif.writeCommand b) :=
  Reports.cleanup.bind fun _ _ => (Reports.modify _).bind fun _ _ => Reports.writePacket _

theorem Reports.readColumnDefs : ∀ n, Reports Any (Verif.readColumnDefs n)
  | 0 => Reports.pure trivial
  | n + 1 => by
    unfold Verif.readColumnDefs
    exact Reports.readPacket.bind fun _ _ => Reports.liftP'.bind fun _ _ => (Reports.readColumnDefs n).bind fun _ _ =>
      Reports.pure trivial

theorem Reports.readColumns (n : Nat) : Reports Any (Verif.readColumns n) := by
  unfold Verif.readColumns
  split
  · exact Reports.crash
  · exact Reports.readColumnDefs n

theorem Reports.read : Reports Any RSet.read := by
  unfold RSet.read
  refine Reports.readPacket.bind fun p _ => Reports.get.bind fun c _ => ?_
  split
  · split
    · exact (Reports.decodeResponse _).bind fun r hr => (Reports.okOrServerError hr).bind fun _ _ => Reports.pure trivial
    · split
      · exact Reports.crash
      · split
        · exact (Reports.liftP (V := Decoded) fun a h => ⟨_, _, h⟩).bind fun a ha => Reports.fail ha
        · exact (Reports.modify _).bind fun _ _ => Reports.liftP'.bind fun _ _ => (Reports.readColumns _).bind fun _ _ =>
            Reports.pure trivial
  · exact (Reports.modify _).bind fun _ _ => Reports.liftP'.bind fun _ _ => (Reports.readColumns _).bind fun _ _ =>
      Reports.pure trivial

theorem Reports.next {R : Type} (rd : RowReader R) (rs : RSet) : Reports Any (rs.next rd) := by
  unfold RSet.next
  split
  · exact Reports.pure trivial
  · refine Reports.readPacket.bind fun p _ => Reports.get.bind fun c _ => (Reports.isLast _ _).bind fun l _ => ?_
    split
    · exact Reports.liftP'.bind fun _ _ => (Reports.modify _).bind fun _ _ => Reports.pure trivial
    · exact Reports.liftP'.bind fun _ _ => Reports.liftParse.bind fun _ _ => Reports.pure trivial

theorem Reports.collectLoop {R : Type} (rd : RowReader R) : ∀ fuel rs, Reports Any (RSet.collectLoop rd fuel rs)
  | 0, _ => Reports.crash
  | fuel + 1, rs => by
    unfold RSet.collectLoop
    refine (Reports.next rd rs).bind fun x _ => ?_
    obtain ⟨rs', r⟩ := x
    cases r with
    | none => exact Reports.pure trivial
    | some r => exact (Reports.collectLoop rd fuel rs').bind fun _ _ => Reports.pure trivial

theorem Reports.collect {R : Type} (rd : RowReader R) (rs : RSet) : Reports Any (rs.collect rd) :=
  fun c => Reports.collectLoop rd _ rs c

theorem Reports.drain {R : Type} (rd : RowReader R) (rs : RSet) : Reports Any (rs.drain rd) :=
  (Reports.collect rd rs).bind fun _ _ => Reports.pure trivial

theorem Reports.attempt {α : Type} {V : α → Prop} {m : M α} (h : Reports V m) :
    Reports (fun x : Except Error α => ∀ e, x = .error e → Genuine e) (SM.attempt m) := by
  intro c
  unfold SM.attempt
  rcases hm : m c with ⟨o, c1⟩
  cases o with
  | ok a => exact ⟨fun _ _ e => (by cases e; exact fun _ e => by cases e), fun _ _ e => by cases e⟩
  | err e => exact ⟨fun _ _ e => (by cases e; exact fun _ e => by cases e; exact (h c).2 _ _ hm), fun _ _ e => by cases e⟩
  | panic => exact ⟨fun _ _ e => (by cases e), fun _ _ e => by cases e⟩

theorem Reports.one {R : Type} (rd : RowReader R) (rs : RSet) : Reports Any (rs.one rd) := by
  unfold RSet.one
  refine (Reports.next rd rs).attempt.bind fun x hx => ?_
  cases x with
  | ok y => exact (Reports.drain rd y.1).bind fun _ _ => Reports.pure trivial
  | error e => exact (Reports.drain rd rs).bind fun _ _ => Reports.fail (hx e rfl)

theorem Reports.finish {R : Type} (rd : RowReader R) (rs : RSet) : Reports Any (rs.finish rd) := by
  unfold RSet.finish
  split
  · exact Reports.pure trivial
  · refine (Reports.drain rd rs).bind fun rs' _ => ?_
    split
    · exact Reports.pure trivial
    · exact Reports.crash

theorem Reports.query (sql : Str) : Reports Any (Verif.query sql) :=
  (Reports.executeCommand _ _).bind fun _ _ => Reports.read

theorem Reports.executeQuery (sql : Str) : Reports Any (Verif.executeQuery sql) :=
  (Reports.executeCommand _ _).bind fun _ _ => Reports.readResponse.bind fun _ hr => Reports.okOrServerError hr

theorem Reports.skipPackets : ∀ n, Reports Any (Verif.skipPackets n)
  | 0 => Reports.pure trivial
  | n + 1 => by
    unfold Verif.skipPackets
    exact Reports.readPacket.bind fun _ _ => Reports.skipPackets n

theorem Reports.prepareStatement (sql : Str) : Reports Any (Verif.prepareStatement sql) := by
  unfold Verif.prepareStatement
  refine (Reports.executeCommand _ _).bind fun _ _ => Reports.readPacket.bind fun p _ => Reports.get.bind fun c _ => ?_
  split
  · split
    · exact Reports.liftP'.bind fun _ _ => (Reports.skipPackets _).bind fun _ _ => Reports.pure trivial
    · split
      · exact (Reports.liftP (V := Decoded) fun a h => ⟨_, _, h⟩).bind fun a ha => Reports.fail ha
      · exact Reports.fail trivial
  · exact Reports.fail trivial

theorem Reports.sendPieces (id : UInt32) (i : Nat) : ∀ ps, Reports Any (Verif.sendPieces id i ps)
  | [] => Reports.pure trivial
  | p :: ps => by
    unfold Verif.sendPieces
    exact (Reports.writeCommand _).bind fun _ _ => Reports.sendPieces id i ps

theorem Reports.sendLongData (id : UInt32) : ∀ i vs, Reports Any (Verif.sendLongData id i vs)
  | _, [] => Reports.pure trivial
  | i, v :: vs => by
    unfold Verif.sendLongData
    exact (Reports.sendPieces _ _ _).bind fun _ _ => Reports.sendLongData id (i + 1) vs

theorem set_no_err {ε : Type} (b : Bool) (bm : Bytes) (i : Nat) (x : Bool) (e : ε) : NullBitmap.set b bm i x ≠ .err e := by
  unfold NullBitmap.set
  intro h
  have hb : ∀ e : ε, NullBitmap.byteAndBit b bm i ≠ .err e := by
    intro e h
    unfold NullBitmap.byteAndBit at h
    dsimp only at h
    split at h <;> cases h
  split at h
  all_goals
    cases hx : (NullBitmap.byteAndBit b bm i : Out ε _) with
    | ok y =>
      rw [hx] at h
      dsimp only [Out.ok_bind] at h
      split at h <;> cases h
    | err e' => exact hb _ hx
    | panic => rw [hx] at h; cases h

theorem scan_no_err {ε : Type} (e : ε) : ∀ (vs : List Value) (i : Nat) (bm : Bytes) (n : Nat),
    ExecRequest.scan i vs bm n ≠ .err e
  | [], _, _, _ => by unfold ExecRequest.scan; exact fun h => by cases h
  | v :: vs, i, bm, n => by
    unfold ExecRequest.scan
    split
    · intro h
      cases hb : (NullBitmap.set true bm i true : Out ε Bytes) with
      | ok b => rw [hb] at h; exact scan_no_err e vs _ _ _ h
      | err e' => exact set_no_err _ _ _ _ _ hb
      | panic => rw [hb] at h; cases h
    · exact scan_no_err e vs _ _ _

theorem Reports.execNew (id : UInt32) (vs : List Value) :
    Reports Any (SM.ofOut (ExecRequest.new id vs) : M ExecRequest) := by
  refine Reports.ofOut (fun _ _ => trivial) fun e h => ?_
  unfold ExecRequest.new at h
  cases hb : (ExecRequest.scan 0 vs (NullBitmap.new true vs.length) 0 : Out Error (Bytes × Nat)) with
  | ok b => rw [hb] at h; cases h
  | err e' => exact (scan_no_err _ _ _ _ _ hb).elim
  | panic => rw [hb] at h; cases h

theorem Reports.sendExecute (id : UInt32) (vs : List Value) : Reports Any (Verif.sendExecute id vs) := by
  unfold Verif.sendExecute
  refine (Reports.execNew id vs).bind fun r _ => ?_
  split
  · exact (Reports.sendLongData _ _ _).bind fun _ _ => Reports.writeCommand _
  · exact Reports.writeCommand _

theorem Reports.stmtQuery (p : Prepared) (vs : List Value) : Reports Any (p.query vs) := by
  unfold Prepared.query
  split
  · exact Reports.fail trivial
  · exact (Reports.sendExecute _ _).bind fun _ _ => Reports.read

theorem Reports.stmtExecute (p : Prepared) (vs : List Value) : Reports Any (p.execute vs) := by
  unfold Prepared.execute
  split
  · exact Reports.fail trivial
  · exact (Reports.sendExecute _ _).bind fun _ _ => Reports.readResponse.bind fun _ hr => Reports.okOrServerError hr

theorem Reports.void {α : Type} {m : M α} (h : Reports Any m) : Reports Any m.void :=
  h.bind fun _ _ => Reports.pure trivial

theorem Reports.call (x : Call) : Reports Any x.run := by
  cases x with
  | query sql => exact (Reports.query sql).void
  | executeQuery sql => exact (Reports.executeQuery sql).void
  | next rd rs => exact (Reports.next rd rs).void
  | collect rd rs => exact (Reports.collect rd rs).void
  | one rd rs => exact (Reports.one rd rs).void
  | finish rd rs => exact (Reports.finish rd rs).void
  | prepare sql => exact (Reports.prepareStatement sql).void
  | stmtQuery p vs => exact (Reports.stmtQuery p vs).void
  | stmtExecute p vs => exact (Reports.stmtExecute p vs).void

/-! ### models -/

theorem Reports.plainValues : ∀ l, Reports Any (Verif.plainValues l)
  | [] => Reports.pure trivial
  | (_, none) :: fs => by unfold Verif.plainValues; exact Reports.plainValues fs
  | (_, some x) :: fs => by
    unfold Verif.plainValues
    exact Reports.liftS.bind fun _ _ => (Reports.plainValues fs).bind fun _ _ => Reports.pure trivial

theorem Reports.memberValues (f : Str) : ∀ l, Reports Any (Verif.memberValues f l)
  | [] => Reports.pure trivial
  | (_, x) :: fs => by
    unfold Verif.memberValues
    exact Reports.liftS.bind fun _ _ => (Reports.memberValues f fs).bind fun _ _ => Reports.pure trivial

theorem Reports.structValues : ∀ l, Reports Any (Verif.structValues l)
  | [] => Reports.pure trivial
  | (_, none) :: fs => by unfold Verif.structValues; exact Reports.structValues fs
  | (_, some x) :: fs => by
    unfold Verif.structValues
    exact (Reports.memberValues _ _).bind fun _ _ => (Reports.structValues fs).bind fun _ _ => Reports.pure trivial

theorem Reports.executeInsert (t : Str) (vs : List NamedValue) : Reports Any (Verif.executeInsert t vs) :=
  (Reports.prepareStatement _).bind fun _ _ => (Reports.stmtExecute _ _).bind fun _ _ => Reports.pure trivial

mutual
theorem Reports.insert : ∀ m : ActiveModel, Reports Any m.insert
  | .mk t p plain structs refs => by
    unfold ActiveModel.insert
    exact (Reports.plainValues _).bind fun _ _ => (Reports.structValues _).bind fun _ _ =>
      (Reports.refValues refs).bind fun _ _ => Reports.executeInsert _ _

theorem Reports.refValues : ∀ r : ActiveRefs, Reports Any (Verif.refValues r)
  | .nil => by unfold Verif.refValues; exact Reports.pure trivial
  | .set f v r => by
    unfold Verif.refValues
    exact (Reports.refValues r).bind fun _ _ => Reports.pure trivial
  | .insert f m r => by
    unfold Verif.refValues
    exact (Reports.insert m).bind fun _ _ => (Reports.refValues r).bind fun _ _ => Reports.pure trivial
  | .unset f r => by unfold Verif.refValues; exact Reports.refValues r
end

theorem Reports.update (id : Value) (primary : Str) (m : ActiveModel) : Reports Any (m.update id primary) := by
  obtain ⟨t, p, plain, structs, refs⟩ := m
  unfold ActiveModel.update ActiveModel.intoValues
  refine Reports.bind (V := Any) ((Reports.plainValues _).bind fun _ _ => (Reports.structValues _).bind fun _ _ =>
      (Reports.refValues refs).bind fun _ _ => Reports.pure trivial) fun vs _ => ?_
  split
  · exact (Reports.prepareStatement _).bind fun _ _ => (Reports.stmtExecute _ _).bind fun _ _ => Reports.pure trivial
  · exact Reports.pure trivial

/-! ### connecting -/

theorem Reports.handleHandshake (alnum : Char → Bool) : Reports Any (Verif.handleHandshake alnum) := by
  unfold Verif.handleHandshake
  refine Reports.readPacket.bind fun p _ => ?_
  split
  · split
    · exact Reports.modify _
    · exact Reports.crash
  · exact Reports.crash

theorem Reports.genData (cr : Crypto) (p : AuthPlugin) (pass nonce : Bytes) (o : Options) :
    Reports Any (SM.ofOut (p.genData cr pass nonce o) : M (Option AuthData)) := by
  refine Reports.ofOut (fun _ _ => trivial) fun e h => ?_
  unfold AuthPlugin.genData at h
  cases p <;> simp only at h <;> (repeat' split at h) <;> first | cases h; trivial | cases h

theorem Reports.authFailure {α : Type} (p : Bytes) : Reports Any (Verif.authFailure p : M α) := by
  unfold Verif.authFailure
  refine Reports.get.bind fun c _ => ?_
  split
  · rename_i h
    exact Reports.fail ⟨_, _, h⟩
  · exact Reports.fail trivial
  · exact Reports.crash

theorem Reports.fetchKey : Reports Any Verif.fetchKey := by
  unfold Verif.fetchKey
  refine Reports.get.bind fun c _ => ?_
  split
  · exact Reports.pure trivial
  · refine (Reports.writePacket _).bind fun _ _ => Reports.readPacket.bind fun p _ => Reports.get.bind fun c _ => ?_
    split
    · exact Reports.fail trivial
    · split
      · exact (Reports.mapErr (f := fun e => .protocol (.serialize (.encryption e))) fun _ => trivial).bind fun _ _ => (Reports.modify _).bind fun _ _ => Reports.pure trivial
      · split
        · exact (Reports.liftP (V := Decoded) fun a h => ⟨_, _, h⟩).bind fun a ha => Reports.fail ha
        · exact Reports.fail trivial

theorem Reports.xorNonce (a b : Bytes) : Reports Any (SM.ofOut (Verif.xorNonce a b) : M Bytes) := by
  refine Reports.ofOut (fun _ _ => trivial) fun e h => ?_
  unfold Verif.xorNonce at h
  split at h <;> cases h

theorem Reports.sendPassword (cr : Crypto) : Reports Any (Verif.sendPassword cr) := by
  unfold Verif.sendPassword
  refine Reports.get.bind fun c _ => ?_
  dsimp only
  split
  · exact Reports.writePacket _
  · exact Reports.fetchKey.bind fun _ _ => Reports.get.bind fun _ _ => (Reports.xorNonce _ _).bind fun _ _ =>
      (Reports.mapErr (f := fun e => .protocol (.serialize (.encryption e))) fun _ => trivial).bind fun _ _ => Reports.writePacket _

theorem Reports.readVerdict : Reports Any Verif.readVerdict := by
  unfold Verif.readVerdict
  refine Reports.readPacket.bind fun p _ => Reports.get.bind fun c _ => ?_
  split
  · exact Reports.fail trivial
  · split
    · exact Reports.pure trivial
    · split
      · exact (Reports.liftP (V := Decoded) fun a h => ⟨_, _, h⟩).bind fun a ha => Reports.fail ha
      · exact Reports.fail trivial

theorem Reports.switchAuth (cr : Crypto) (sw : AuthSwitch) : Reports Any (Verif.switchAuth cr sw) := by
  unfold Verif.switchAuth
  refine Reports.get.bind fun c _ => ?_
  split
  · exact Reports.crash
  · refine (Reports.modify _).bind fun _ _ => Reports.get.bind fun _ _ => (Reports.genData _ _ _ _ _).bind fun d _ => ?_
    split <;> exact Reports.writePacket _

theorem Reports.continueAuth (cr : Crypto) : ∀ fuel, Reports Any (Verif.continueAuth cr fuel)
  | 0 => Reports.crash
  | fuel + 1 => by
    unfold Verif.continueAuth
    refine Reports.get.bind fun c _ => Reports.readPacket.bind fun p _ => Reports.get.bind fun c _ => ?_
    split
    · exact Reports.authFailure _
    · split
      · exact Reports.pure trivial
      · split
        · split
          · exact Reports.fail trivial
          · split
            · exact Reports.readPacket.bind fun _ _ => Reports.pure trivial
            · split
              · exact (Reports.sendPassword cr).bind fun _ _ => Reports.readVerdict
              · exact Reports.fail trivial
        · split
          · exact Reports.liftP'.bind fun _ _ => (Reports.switchAuth _ _).bind fun _ _ => Reports.continueAuth cr fuel
          · exact Reports.authFailure _

theorem Reports.limitOf (cols : List Column) (row : List Value) :
    Reports Any (SM.ofOut (Verif.limitOf cols row) : M (Option Nat)) := by
  refine Reports.ofOut (fun _ _ => trivial) fun e h => ?_
  unfold Verif.limitOf at h
  dsimp only at h
  repeat' split at h
  all_goals first | cases h; trivial | cases h

theorem Reports.readSettings (fp : FloatParse) : Reports Any (Verif.readSettings fp) := by
  unfold Verif.readSettings Verif.askLimit
  refine Reports.get.bind fun c _ => ?_
  split
  · refine (Reports.query _).bind fun rs _ => (Reports.next _ _).bind fun x _ => ?_
    obtain ⟨rs', row⟩ := x
    cases row with
    | none => exact Reports.pure trivial
    | some row =>
      refine (Reports.limitOf _ _).bind fun n _ => ?_
      cases n with
      | none => exact Reports.pure trivial
      | some n => exact Reports.modify _
  · exact Reports.pure trivial

theorem Reports.connect (cr : Crypto) (alnum : Char → Bool) (fp : FloatParse) :
    Reports Any (Verif.connect cr alnum fp) := by
  refine Reports.bind (V := Any) ?_ fun _ _ => Reports.readSettings fp
  refine (Reports.handleHandshake alnum).bind fun _ _ => Reports.bind (V := Any) ?_ fun _ _ => Reports.continueAuth cr 2
  exact Reports.get.bind fun _ _ => (Reports.genData _ _ _ _ _).bind fun _ _ => Reports.writePacket _

/-! ### the state -/

theorem state_text {caps : UInt32} {bs : Bytes} {code : UInt16} {state : Option Bytes} {msg : Str}
    (h : runP (ErrPacket.deserialize caps) bs = .ok (.error code state msg)) :
    rawStateStr state = .defined (.ok (stateStr state)) ∧ ∀ b ∈ state, b.length = 5 := by
  have key : ∀ (s : Bytes) (code' : UInt16) (p41 : Bool) (s' : Bytes),
      ErrPacket.deserializeError code' p41 s = (.ok (.error code state msg), s') →
      ∀ b ∈ state, b.length = 5 ∧ (fromUtf8 b).isSome := by
    intro s code' p41 s' h b hb
    have tail : ∀ (st : Option Bytes) (s : Bytes), (P.eatAll >>= fun rest => match fromUtf8 rest with
        | some msg => Pure.pure (ErrPacket.error code' st msg)
        | none => SM.fail (.parse .fromUtf8)) s = (.ok (.error code state msg), s') → st = state := by
      intro st s h
      obtain ⟨rest, s2, h3, h4⟩ := SM.bind_eq_ok.1 h
      cases hr : fromUtf8 rest with
      | some m => rw [hr] at h4; cases h4; rfl
      | none => rw [hr] at h4; cases h4
    unfold ErrPacket.deserializeError at h
    cases p41 with
    | false =>
      rw [if_neg (by decide)] at h
      have := tail none s h
      subst this
      cases hb
    | true =>
      rw [if_pos rfl] at h
      obtain ⟨m, s2, h3, h4⟩ := SM.bind_eq_ok.1 h
      split at h4
      · obtain ⟨_, _, _, h5⟩ := SM.bind_eq_ok.1 h4
        obtain ⟨_, _, h6, _⟩ := SM.bind_eq_ok.1 h5
        cases h6
      · obtain ⟨x, s3, h5, h6⟩ := SM.bind_eq_ok.1 h4
        cases hx : fromUtf8 x with
        | none =>
          rw [hx] at h6
          obtain ⟨_, _, h7, _⟩ := SM.bind_eq_ok.1 h6
          cases h7
        | some y =>
          rw [hx] at h6
          have := tail (some x) s3 h6
          subst this
          obtain rfl : x = b := by simpa using hb
          refine ⟨?_, by rw [hx]; rfl⟩
          unfold P.checkedEat P.eat at h5
          split at h5
          · rename_i hl
            cases h5
            rw [List.length_take]
            omega
          · cases h5
  have all : ∀ b ∈ state, b.length = 5 ∧ (fromUtf8 b).isSome := by
    unfold runP at h
    rcases hd : ErrPacket.deserialize caps bs with ⟨o, rest⟩
    rw [hd] at h
    have h : o = .ok (.error code state msg) := h
    subst h
    unfold ErrPacket.deserialize at hd
    obtain ⟨_, _, _, hd⟩ := SM.bind_eq_ok.1 hd
    obtain ⟨_, _, _, hd⟩ := SM.bind_eq_ok.1 hd
    split at hd
    · obtain ⟨_, _, _, hd⟩ := SM.bind_eq_ok.1 hd
      cases hd
    · obtain ⟨_, _, _, hd⟩ := SM.bind_eq_ok.1 hd
      split at hd
      · exfalso
        unfold ErrPacket.deserializeProgress at hd
        iterate 6 obtain ⟨_, _, _, hd⟩ := SM.bind_eq_ok.1 hd
        cases hd
      · exact key _ _ _ _ hd
  refine ⟨?_, fun b hb => (all b hb).1⟩
  cases state with
  | none => rfl
  | some b =>
    have := (all b rfl).2
    unfold rawStateStr stateStr
    cases hx : fromUtf8 b with
    | none => rw [hx] at this; cases this
    | some y => simp [hx]

theorem call_reported (x : Call) (c c' : Conn) (p : ErrPacket) (h : x.run c = (.err (.server p), c')) : Decoded p :=
  (Reports.call x c).2 _ _ h

theorem connect_reported (cr : Crypto) (alnum : Char → Bool) (fp : FloatParse) (c c' : Conn) (p : ErrPacket)
    (h : connect cr alnum fp c = (.err (.server p), c')) : Decoded p :=
  (Reports.connect cr alnum fp c).2 _ _ h

end Verif

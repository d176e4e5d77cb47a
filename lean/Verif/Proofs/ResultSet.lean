import Verif.Proofs.Command
import Verif.Proofs.Row

/-! Helper lemmas: heads of result sets, single-packet answers. -/

namespace Verif

theorem lenenc_head (n : Nat) (h0 : 0 < n) (h : n < 2 ^ 64) :
    ∃ b r, Spec.lenenc n = b :: r ∧ b ≠ 0 ∧ b ≠ 0xFB ∧ b ≠ 0xFF := by
  unfold Spec.lenenc
  by_cases h1 : n ≤ 250
  · rw [if_pos h1]
    have e : (UInt8.ofNat n).toNat = n := uint8_toNat_ofNat_of_lt (by omega)
    refine ⟨UInt8.ofNat n, [], rfl, ?_, ?_, ?_⟩ <;>
    · intro hc
      have := congrArg UInt8.toNat hc
      rw [e] at this
      simp at this
      omega
  · rw [if_neg h1]
    by_cases h2 : n ≤ 65535
    · rw [if_pos h2]; exact ⟨_, _, rfl, by decide, by decide, by decide⟩
    · rw [if_neg h2]
      by_cases h3 : n ≤ 16777215
      · rw [if_pos h3]; exact ⟨_, _, rfl, by decide, by decide, by decide⟩
      · rw [if_neg h3]; exact ⟨_, _, rfl, by decide, by decide, by decide⟩

/-- the packets before the rows. -/
def headPackets (ds : List Spec.ColDesc) : List Bytes :=
  Spec.lenenc ds.length :: ds.map Spec.colDef

theorem readColumns_few {n : Nat} (h : n ≤ 2 ^ 56) : readColumns n = readColumnDefs n := by
  unfold readColumns
  rw [if_neg (by unfold columnLimit; omega)]

theorem read_head (ds : List Spec.ColDesc) (cols : List Column) (c : Conn) (s : UInt8)
    (ps : List Bytes) (r : List Rx) (h : DescsAs ds cols) (h0 : ds ≠ [])
    (hl : ds.length < 2 ^ 56) :
    RSet.read (c.feed s (headPackets ds ++ ps) r)
      = (.ok { columns := cols, okPacket := none },
         { c.feed (Spec.seqAfter s (headPackets ds)) ps r with pendingResult := true }) := by
  have hl' : ds.length < 2 ^ 64 := Nat.lt_of_lt_of_le hl (by decide)
  obtain ⟨b, t, e, h1, h2, h3⟩ := lenenc_head ds.length (List.length_pos_iff.mpr h0) hl'
  have hn : runP P.checkedEatLenencInt (Spec.lenenc ds.length)
      = .ok (UInt64.ofNat ds.length) := by
    have := P.checkedEatLenencInt_spec [] hl'
    rw [List.append_nil] at this
    unfold runP; rw [this]
  unfold RSet.read headPackets
  rw [List.cons_append, SM.bind_of_ok (readPacket_feed c s _ _ r), SM.get_bind_apply]
  rw [e] at hn ⊢
  dsimp only
  rw [if_neg h1, if_neg h2, if_neg h3, SM.modify_bind_apply, hn]
  unfold liftP
  rw [Out.mapErr_ok, SM.ofOut_ok_bind_apply]
  have e2 : (UInt64.ofNat ds.length).toNat = ds.length := uint64_toNat_ofNat_of_lt hl'
  rw [e2, readColumns_few (Nat.le_of_lt hl), SM.bind_of_ok (readColumnDefs_spec ds cols { c with pendingResult := true }
    (s + UInt8.ofNat (Spec.frameCount (b :: t))) ps r h), ← e]
  rfl

/-! ### single packets -/

theorem decodeResponse_ok (c : Conn) (a l : UInt64) (status warnings : UInt16) (msg : Str)
    (hm : (utf8 msg).length < 2 ^ 64)
    (hs : hasFlag32 c.data.capabilities Cap.SESSION_TRACK = false ∨
      hasFlag16 (statusTruncate status) Status.SESSION_STATE_CHANGED = false) :
    decodeResponse (Spec.okPacket a.toNat l.toNat status.toNat warnings.toNat msg) c
      = (.ok (.ok (okOf a l status warnings msg)), c) := by
  have h := readOk_spec c.data.capabilities a l status warnings msg hm hs
  have e : ∃ t, Spec.okPacket a.toNat l.toNat status.toNat warnings.toNat msg = 0 :: t :=
    ⟨_, rfl⟩
  obtain ⟨t, e⟩ := e
  unfold decodeResponse
  rw [SM.get_bind_apply]
  rw [e] at h ⊢
  dsimp only
  rw [if_pos rfl, h]
  rfl

theorem errPacket_head (code : Nat) (st : Option Bytes) (msg : Str) :
    ∃ t, Spec.errPacket code st msg = 0xFF :: t := ⟨_, rfl⟩

theorem decodeResponse_err (c : Conn) (code : UInt16) (state : Str) (msg : Str)
    (hs : (utf8 state).length = 5)
    (hc : code ≠ 0xFFFF ∨ hasFlag32 c.data.capabilities Cap.PROGRESS_OBSOLETE = false) :
    decodeResponse (Spec.errPacket code.toNat
        (stateOf (hasFlag32 c.data.capabilities Cap.PROTOCOL_41) (utf8 state)) msg) c
      = (.ok (.error (.error code
          (stateOf (hasFlag32 c.data.capabilities Cap.PROTOCOL_41) (utf8 state)) msg)), c) := by
  have h := errPacket_spec c.data.capabilities code state msg hs hc
  obtain ⟨t, e⟩ := errPacket_head code.toNat
    (stateOf (hasFlag32 c.data.capabilities Cap.PROTOCOL_41) (utf8 state)) msg
  unfold decodeResponse
  rw [SM.get_bind_apply]
  rw [e] at h ⊢
  dsimp only
  rw [if_neg (by decide), if_pos rfl, h]
  rfl

theorem read_ok_head (c : Conn) (s : UInt8) (r : List Rx) (ps : List Bytes) (a l : UInt64)
    (status warnings : UInt16) (msg : Str)
    (hm : (utf8 msg).length < 2 ^ 64)
    (hs : hasFlag32 c.data.capabilities Cap.SESSION_TRACK = false ∨
      hasFlag16 (statusTruncate status) Status.SESSION_STATE_CHANGED = false) :
    let p := Spec.okPacket a.toNat l.toNat status.toNat warnings.toNat msg
    RSet.read (c.feed s (p :: ps) r)
      = (.ok { columns := [], okPacket := some (okOf a l status warnings msg) },
         c.feed (s + UInt8.ofNat (Spec.frameCount p)) ps r) := by
  intro p
  have e : ∃ t, p = 0 :: t := ⟨_, rfl⟩
  obtain ⟨t, e⟩ := e
  unfold RSet.read
  rw [SM.bind_of_ok (readPacket_feed c s _ _ r), SM.get_bind_apply]
  have h := decodeResponse_ok (c.feed (s + UInt8.ofNat (Spec.frameCount p)) ps r) a l status warnings
    msg hm hs
  have h' : decodeResponse p (c.feed (s + UInt8.ofNat (Spec.frameCount p)) ps r) = _ := h
  rw [e] at h' ⊢
  dsimp only
  rw [if_pos rfl, SM.bind_of_ok h']
  rfl

theorem read_err_head (c : Conn) (s : UInt8) (r : List Rx) (ps : List Bytes) (code : UInt16)
    (state : Str) (msg : Str) (hs : (utf8 state).length = 5)
    (hc : code ≠ 0xFFFF ∨ hasFlag32 c.data.capabilities Cap.PROGRESS_OBSOLETE = false) :
    let st := stateOf (hasFlag32 c.data.capabilities Cap.PROTOCOL_41) (utf8 state)
    let p := Spec.errPacket code.toNat st msg
    RSet.read (c.feed s (p :: ps) r)
      = (.err (.server (.error code st msg)),
         c.feed (s + UInt8.ofNat (Spec.frameCount p)) ps r) := by
  intro st p
  obtain ⟨t, e⟩ := errPacket_head code.toNat st msg
  have e' : p = 0xFF :: t := e
  have h := errPacket_spec c.data.capabilities code state msg hs hc
  have h' : runP (ErrPacket.deserialize c.data.capabilities) p = .ok (.error code st msg) := h
  unfold RSet.read
  rw [SM.bind_of_ok (readPacket_feed c s _ _ r), SM.get_bind_apply]
  rw [e'] at h' ⊢
  dsimp only
  rw [if_neg (by decide), if_neg (by decide), if_pos rfl, h']
  rfl

theorem readResponse_feed (c : Conn) (s : UInt8) (p : Bytes) (ps : List Bytes) (r : List Rx) :
    readResponse (c.feed s (p :: ps) r)
      = decodeResponse p (c.feed (s + UInt8.ofNat (Spec.frameCount p)) ps r) := by
  unfold readResponse
  rw [SM.bind_of_ok (readPacket_feed c s _ _ r)]

theorem readResponse_ok (c : Conn) (r : List Rx) (a l : UInt64) (status warnings : UInt16)
    (msg : Str) (hm : (utf8 msg).length < 2 ^ 64)
    (hs : hasFlag32 c.data.capabilities Cap.SESSION_TRACK = false ∨
      hasFlag16 (statusTruncate status) Status.SESSION_STATE_CHANGED = false)
    (h : c.rx = rxOf (Spec.frames c.seqId
      (Spec.okPacket a.toNat l.toNat status.toNat warnings.toNat msg)) ++ r) :
    ∃ q, readResponse c = (.ok (.ok (okOf a l status warnings msg)),
      { c with rx := r, seqId := q }) := by
  unfold readResponse
  rw [SM.bind_of_ok (readPacket_frames _ r c h)]
  exact ⟨_, decodeResponse_ok { c with rx := r, seqId := _ } a l status warnings msg hm hs⟩

theorem readResponse_err (c : Conn) (r : List Rx) (code : UInt16) (state : Str) (msg : Str)
    (hs : (utf8 state).length = 5)
    (hc : code ≠ 0xFFFF ∨ hasFlag32 c.data.capabilities Cap.PROGRESS_OBSOLETE = false)
    (h : c.rx = rxOf (Spec.frames c.seqId (Spec.errPacket code.toNat
        (stateOf (hasFlag32 c.data.capabilities Cap.PROTOCOL_41) (utf8 state)) msg)) ++ r) :
    ∃ q, readResponse c = (.ok (.error (.error code
        (stateOf (hasFlag32 c.data.capabilities Cap.PROTOCOL_41) (utf8 state)) msg)),
      { c with rx := r, seqId := q }) := by
  unfold readResponse
  rw [SM.bind_of_ok (readPacket_frames _ r c h)]
  exact ⟨_, decodeResponse_err { c with rx := r, seqId := _ } code state msg hs hc⟩

/-! ### reading never writes -/

/-- `m` leaves everything that has to do with sending alone. -/
def ReadOnly {α : Type} (m : M α) : Prop :=
  ∀ c, (m c).2.tx = c.tx ∧ (m c).2.wfaults = c.wfaults

theorem ReadOnly.bind {α β : Type} {m : M α} {f : α → M β} (h1 : ReadOnly m) (h2 : ∀ a, ReadOnly (f a)) :
    ReadOnly (m >>= f) := by
  intro c
  rw [SM.bind_apply]
  have h := h1 c
  rcases hm : m c with ⟨o, c'⟩
  rw [hm] at h
  cases o with
  | ok a => exact ⟨((h2 a c').1).trans h.1, ((h2 a c').2).trans h.2⟩
  | err e => exact h
  | panic => exact h

theorem ReadOnly.pure {α : Type} (a : α) : ReadOnly (Pure.pure a : M α) := fun _ => ⟨rfl, rfl⟩
theorem ReadOnly.fail {α : Type} (e : Error) : ReadOnly (SM.fail e : M α) := fun _ => ⟨rfl, rfl⟩
theorem ReadOnly.crash {α : Type} : ReadOnly (SM.crash : M α) := fun _ => ⟨rfl, rfl⟩
theorem ReadOnly.get : ReadOnly (SM.get : M Conn) := fun _ => ⟨rfl, rfl⟩
theorem ReadOnly.ofOut {α : Type} (x : Out Error α) : ReadOnly (SM.ofOut x : M α) :=
  fun _ => ⟨rfl, rfl⟩
theorem ReadOnly.liftP {α : Type} (x : Out ProtocolError α) : ReadOnly (liftP x) := ReadOnly.ofOut _
theorem ReadOnly.modify (f : Conn → Conn) (h : ∀ c, (f c).tx = c.tx ∧ (f c).wfaults = c.wfaults) :
    ReadOnly (SM.modify f) := h

theorem ReadOnly.ite {α : Type} {p : Prop} [Decidable p] {a b : M α} (ha : ReadOnly a) (hb : ReadOnly b) :
    ReadOnly (if p then a else b) := by
  split <;> assumption

theorem readOnly_readExact (n : Nat) : ReadOnly (readExact n) := fun _ => ⟨rfl, rfl⟩

theorem readOnly_readChunk (dst : Bytes) : ReadOnly (readChunk dst) := by
  unfold readChunk
  refine ReadOnly.bind (readOnly_readExact 4) fun a => ?_
  split
  · refine ReadOnly.ite (ReadOnly.pure _) (ReadOnly.bind (readOnly_readExact _) fun a => ?_)
    exact ReadOnly.ite (ReadOnly.pure _) (ReadOnly.pure _)
  · exact ReadOnly.crash

theorem readOnly_readPacketLoop (fuel : Nat) (dst : Bytes) : ReadOnly (readPacketLoop fuel dst) := by
  induction fuel generalizing dst with
  | zero => exact ReadOnly.crash
  | succ fuel ih =>
    unfold readPacketLoop
    refine ReadOnly.bind (readOnly_readChunk dst) fun a => ReadOnly.bind ReadOnly.get fun c => ?_
    refine ReadOnly.ite (ReadOnly.fail _) (ReadOnly.bind (ReadOnly.modify _ fun c => ⟨rfl, rfl⟩) fun _ => ?_)
    exact ReadOnly.ite (ReadOnly.pure _) (ih _)

theorem readOnly_readPacket : ReadOnly readPacket := fun c => readOnly_readPacketLoop _ _ c

theorem readOnly_decodeResponse (p : Bytes) : ReadOnly (decodeResponse p) := by
  unfold decodeResponse
  refine ReadOnly.bind ReadOnly.get fun c => ?_
  split
  · exact ReadOnly.fail _
  · refine ReadOnly.ite (ReadOnly.bind (ReadOnly.liftP _) fun _ => ReadOnly.pure _)
      (ReadOnly.ite (ReadOnly.bind (ReadOnly.liftP _) fun _ => ReadOnly.pure _) (ReadOnly.fail _))

theorem readOnly_readResponse : ReadOnly readResponse :=
  ReadOnly.bind readOnly_readPacket fun p => readOnly_decodeResponse p

theorem readOnly_okOrServerError (r : Except ErrPacket OkPacket) : ReadOnly (okOrServerError r) := by
  cases r with
  | ok a => exact ReadOnly.pure _
  | error e => exact ReadOnly.fail _

theorem readOnly_readColumnDefs (n : Nat) : ReadOnly (readColumnDefs n) := by
  induction n with
  | zero => exact ReadOnly.pure _
  | succ n ih =>
    exact ReadOnly.bind readOnly_readPacket fun p => ReadOnly.bind (ReadOnly.liftP _) fun _ =>
      ReadOnly.bind ih fun _ => ReadOnly.pure _

theorem readOnly_readColumns (n : Nat) : ReadOnly (readColumns n) := by
  unfold readColumns
  split
  · exact ReadOnly.crash
  · exact readOnly_readColumnDefs n

theorem readOnly_read : ReadOnly RSet.read := by
  unfold RSet.read
  refine ReadOnly.bind readOnly_readPacket fun p => ReadOnly.bind ReadOnly.get fun c => ?_
  have hcols : ∀ p, ReadOnly (do
      SM.modify fun c => { c with pendingResult := true }
      let n ← liftP (runP P.checkedEatLenencInt p)
      let cols ← readColumns n.toNat
      pure { columns := cols, okPacket := none } : M RSet) := fun p =>
    ReadOnly.bind (ReadOnly.modify _ fun _ => ⟨rfl, rfl⟩) fun _ => ReadOnly.bind (ReadOnly.liftP _)
      fun _ => ReadOnly.bind (readOnly_readColumns _) fun _ => ReadOnly.pure _
  split
  · refine ReadOnly.ite (ReadOnly.bind (readOnly_decodeResponse _) fun _ =>
      ReadOnly.bind (readOnly_okOrServerError _) fun _ => ReadOnly.pure _)
      (ReadOnly.ite ReadOnly.crash (ReadOnly.ite (ReadOnly.bind (ReadOnly.liftP _) fun _ =>
        ReadOnly.fail _) (hcols _)))
  · exact hcols _

theorem readOnly_skipPackets (n : Nat) : ReadOnly (skipPackets n) := by
  induction n with
  | zero => exact ReadOnly.pure _
  | succ n ih => exact ReadOnly.bind readOnly_readPacket fun _ => ih

theorem readOnly_cleanupLoop (n : Nat) : ReadOnly (cleanupLoop n) := by
  induction n with
  | zero => exact ReadOnly.crash
  | succ n ih =>
    unfold cleanupLoop
    refine ReadOnly.bind readOnly_readPacket fun p => ReadOnly.bind ReadOnly.get fun c =>
      ReadOnly.bind (ReadOnly.ofOut _) fun l => ReadOnly.ite ?_ ih
    exact ReadOnly.bind (ReadOnly.modify _ fun _ => ⟨rfl, rfl⟩) fun _ => ReadOnly.liftP _

theorem readOnly_cleanup : ReadOnly cleanup := by
  intro c
  unfold cleanup
  split
  · exact (ReadOnly.bind (readOnly_cleanupLoop _) fun _ => ReadOnly.pure _) c
  · exact ⟨rfl, rfl⟩

theorem readOnly_next {R : Type} (rd : RowReader R) (rs : RSet) : ReadOnly (rs.next rd) := by
  unfold RSet.next
  refine ReadOnly.ite (ReadOnly.pure _) (ReadOnly.bind readOnly_readPacket fun p =>
    ReadOnly.bind ReadOnly.get fun c => ReadOnly.bind (ReadOnly.ofOut _) fun l => ReadOnly.ite ?_ ?_)
  · exact ReadOnly.bind (ReadOnly.liftP _) fun _ =>
      ReadOnly.bind (ReadOnly.modify _ fun _ => ⟨rfl, rfl⟩) fun _ => ReadOnly.pure _
  · exact ReadOnly.bind (ReadOnly.liftP _) fun _ =>
      ReadOnly.bind (ReadOnly.ofOut _) fun _ => ReadOnly.pure _

end Verif

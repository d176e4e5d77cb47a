import Mathlib.Data.List.Forall2
import Verif.Proofs.Packets

/-! Helper lemmas: result sets. -/

namespace Verif

/-- `c` with the packets `ps`, the first numbered `s`, next on the stream, then `r`; the sequence
number `s` is expected. -/
abbrev Conn.feed (c : Conn) (s : UInt8) (ps : List Bytes) (r : List Rx) : Conn :=
  { c with rx := rxOf (Spec.framesAll s ps) ++ r, seqId := s }

theorem Conn.feed_of {c : Conn} {ps : List Bytes} {r : List Rx} {s : UInt8} (hs : c.seqId = s)
    (h : c.rx = rxOf (Spec.framesAll s ps) ++ r) : c = c.feed s ps r := by
  cases c; simp only at hs h; subst hs; subst h; rfl

theorem readPacket_feed (c : Conn) (s : UInt8) (p : Bytes) (ps : List Bytes) (r : List Rx) :
    readPacket (c.feed s (p :: ps) r)
      = (.ok p, c.feed (s + UInt8.ofNat (Spec.frameCount p)) ps r) := by
  rw [readPacket_frames p (rxOf (Spec.framesAll (s + UInt8.ofNat (Spec.frameCount p)) ps) ++ r)]
  simp only [Spec.framesAll, rxOf_append, List.append_assoc]

theorem framesAll_append (s : UInt8) (ps qs : List Bytes) :
    Spec.framesAll s (ps ++ qs) = Spec.framesAll s ps ++ Spec.framesAll (Spec.seqAfter s ps) qs := by
  induction ps generalizing s with
  | nil => rfl
  | cons p ps ih => simp only [List.cons_append, Spec.framesAll, Spec.seqAfter, ih, List.append_assoc]

theorem seqAfter_append (s : UInt8) (ps qs : List Bytes) :
    Spec.seqAfter s (ps ++ qs) = Spec.seqAfter (Spec.seqAfter s ps) qs := by
  induction ps generalizing s with
  | nil => rfl
  | cons p ps ih => simp only [List.cons_append, Spec.seqAfter, ih]

theorem framesAll_length (s : UInt8) (ps : List Bytes) : ps.length ≤ (Spec.framesAll s ps).length := by
  induction ps generalizing s with
  | nil => simp [Spec.framesAll]
  | cons p ps ih =>
    have := ih (s + UInt8.ofNat (Spec.frameCount p))
    have h2 := length_frames s p
    simp only [Spec.framesAll, List.length_append, List.length_cons]
    have : 0 < Spec.frameCount p := Nat.succ_pos _
    omega

/-! ### rows and terminators -/

theorem isRow_head {p : Bytes} (h : Spec.IsRow p) :
    ∃ b r, p = b :: r ∧ (b = 0xFE → 2 ^ 24 ≤ p.length) ∧ b ≠ 0xFF := by
  rcases h with ⟨cells, hne, hl, rfl⟩ | ⟨r, rfl⟩
  · cases cells with
    | nil => exact absurd rfl hne
    | cons cell cells =>
      cases cell with
      | none => exact ⟨0xFB, _, rfl, fun h => absurd h (by decide), by decide⟩
      | some t =>
        have ht := hl t (by simp)
        simp only [Spec.textCells, Spec.lenencStr, Spec.lenenc]
        by_cases h1 : t.length ≤ 250
        · rw [if_pos h1]
          refine ⟨UInt8.ofNat t.length, t ++ Spec.textCells cells, by simp, ?_, ?_⟩
          · intro hc
            have := congrArg UInt8.toNat hc
            rw [uint8_toNat_ofNat_of_lt (by omega)] at this
            simp at this; omega
          · intro hc
            have := congrArg UInt8.toNat hc
            rw [uint8_toNat_ofNat_of_lt (by omega)] at this
            simp at this; omega
        · rw [if_neg h1]
          by_cases h2 : t.length ≤ 65535
          · rw [if_pos h2]
            exact ⟨0xFC, Spec.le 2 t.length ++ t ++ Spec.textCells cells, by simp, fun h => absurd h (by decide), by decide⟩
          · rw [if_neg h2]
            by_cases h3 : t.length ≤ 16777215
            · rw [if_pos h3]
              exact ⟨0xFD, Spec.le 3 t.length ++ t ++ Spec.textCells cells, by simp, fun h => absurd h (by decide), by decide⟩
            · rw [if_neg h3]
              refine ⟨0xFE, Spec.le 8 t.length ++ t ++ Spec.textCells cells, by simp, ?_, by decide⟩
              intro _
              rw [List.length_append, List.length_append]
              omega
  · exact ⟨0, r, rfl, fun h => absurd h (by decide), by decide⟩

theorem isLast_cons (caps : UInt32) (b : UInt8) (r : Bytes) : isLast caps (b :: r) =
    if hasFlag32 caps Cap.DEPRECATE_EOF then .ok (b == 0xFE && (b :: r).length < MAX_PAYLOAD_LEN)
    else .ok (b == 0xFE && (b :: r).length < 8) := rfl

theorem isLast_row (caps : UInt32) {p : Bytes} (h : Spec.IsRow p) : isLast caps p = .ok false := by
  obtain ⟨b, r, rfl, h1, -⟩ := isRow_head h
  rw [isLast_cons]
  by_cases hb : b = 0xFE
  · have h2 := h1 hb
    have e1 : decide ((b :: r).length < MAX_PAYLOAD_LEN) = false := by
      rw [decide_eq_false_iff_not]; unfold MAX_PAYLOAD_LEN; omega
    have e2 : decide ((b :: r).length < 8) = false := by
      rw [decide_eq_false_iff_not]; omega
    rw [e1, e2, Bool.and_false, ite_self]
  · have : (b == 0xFE) = false := by simpa using hb
    rw [this, Bool.false_and, Bool.false_and, ite_self]

theorem terminator_eq (status warnings : Nat) :
    Spec.terminator status warnings = [0xFE, 0, 0, UInt8.ofNat (status % 256),
      UInt8.ofNat (status / 256 % 256), UInt8.ofNat (warnings % 256),
      UInt8.ofNat (warnings / 256 % 256)] := by
  simp [Spec.terminator, Spec.lenenc, spec_le_eq, leBytes]

theorem isLast_term (caps : UInt32) (status warnings : Nat) :
    isLast caps (Spec.terminator status warnings) = .ok true := by
  rw [terminator_eq, isLast_cons]
  have e : ∀ (a b c d : UInt8), ([0xFE, 0, 0, a, b, c, d] : Bytes).length = 7 := fun _ _ _ _ => rfl
  rw [e]
  by_cases h : hasFlag32 caps Cap.DEPRECATE_EOF = true
  · rw [if_pos h]; rfl
  · rw [if_neg h]; rfl

theorem frameCount_term (status warnings : Nat) :
    Spec.frameCount (Spec.terminator status warnings) = 1 := by
  apply frameCount_short
  rw [terminator_eq]
  simp only [List.length_cons, List.length_nil, MAX_PAYLOAD_LEN]
  omega

/-- what the code makes of a terminator. -/
def eofSeen (status warnings : Nat) : OkPacket :=
  { affectedRows := 0, lastInsertId := 0,
    status := statusTruncate (UInt16.ofNat (256 * (status % 256))),
    warnings := UInt16.ofNat (status / 256 % 256 + 256 * (warnings % 256)),
    message := none, sessionStateInfo := none }

/-- a length-encoded string whose announced length is not there. -/
theorem optStr_single (b : UInt8) : optStr [b] = (.ok none, []) := by
  have h : ∀ n < 256, optStr [UInt8.ofNat n] = (.ok none, []) := by decide +kernel
  have := h b.toNat b.toNat_lt
  rwa [UInt8.ofNat_toNat] at this

theorem readEof_term (caps : UInt32) (status warnings : Nat) :
    runP (OkPacket.readEof caps) (Spec.terminator status warnings)
      = .ok (eofSeen status warnings) := by
  rw [terminator_eq]
  generalize hs0 : UInt8.ofNat (status % 256) = s0
  generalize hs1 : UInt8.ofNat (status / 256 % 256) = s1
  generalize hw0 : UInt8.ofNat (warnings % 256) = w0
  generalize UInt8.ofNat (warnings / 256 % 256) = w1
  have e0 : s0.toNat = status % 256 := by rw [← hs0, uint8_toNat_ofNat_of_lt (by omega)]
  have e1 : s1.toNat = status / 256 % 256 := by rw [← hs1, uint8_toNat_ofNat_of_lt (by omega)]
  have e2 : w0.toNat = warnings % 256 := by rw [← hw0, uint8_toNat_ofNat_of_lt (by omega)]
  have h1 : SM.ignore P.checkedEatLenencInt [0xFE, 0, 0, s0, s1, w0, w1]
      = (.ok (), [0, 0, s0, s1, w0, w1]) := rfl
  have h2 : SM.ignore P.checkedEatLenencInt [0, 0, s0, s1, w0, w1]
      = (.ok (), [0, s0, s1, w0, w1]) := rfl
  have e3 : ([0, s0, s1, w0, w1] : Bytes) = Spec.le 2 (UInt16.ofNat (256 * s0.toNat)).toNat ++
      (Spec.le 2 (UInt16.ofNat (s1.toNat + 256 * w0.toNat)).toNat ++ [w1]) := by
    have a := s0.toNat_lt; have b := s1.toNat_lt; have c := w0.toNat_lt
    rw [uint16_toNat_ofNat_of_lt (by omega), uint16_toNat_ofNat_of_lt (by omega)]
    simp only [spec_le_eq, leBytes, List.cons_append, List.nil_append]
    have f1 : 256 * s0.toNat % 256 = 0 := by omega
    have f2 : 256 * s0.toNat / 256 % 256 = s0.toNat := by omega
    have f3 : (s1.toNat + 256 * w0.toNat) % 256 = s1.toNat := by omega
    have f4 : (s1.toNat + 256 * w0.toNat) / 256 % 256 = w0.toNat := by omega
    rw [f1, f2, f3, f4]
    simp
  unfold runP OkPacket.readEof
  rw [SM.bind_of_ok h1, SM.bind_of_ok h2, e3, readTail_spec, SM.bind_of_ok (optStr_single w1)]
  rw [e0, e1, e2]
  split
  · rw [SM.bind_of_ok optStr_nil]; rfl
  · rfl

/-! ### `next` on rows and terminators -/

theorem next_row {R : Type} (rd : RowReader R) (rs : RSet) (c : Conn) (s : UInt8) (p : Bytes)
    (ps : List Bytes) (r : List Rx) {vs : List Value} {x : R} (hrs : rs.okPacket = none)
    (hp : Spec.IsRow p) (h1 : rd.row p rs.columns = .ok vs) (h2 : rd.build rs.columns vs = .ok x) :
    rs.next rd (c.feed s (p :: ps) r)
      = (.ok (rs, some x), c.feed (s + UInt8.ofNat (Spec.frameCount p)) ps r) := by
  unfold RSet.next
  rw [hrs, if_neg (by simp), SM.bind_of_ok (readPacket_feed c s p ps r), SM.get_bind_apply,
    isLast_row _ hp, SM.ofOut_ok_bind_apply, if_neg (by simp), h1]
  unfold liftP
  rw [Out.mapErr_ok, SM.ofOut_ok_bind_apply, h2]
  rfl

theorem next_term {R : Type} (rd : RowReader R) (rs : RSet) (c : Conn) (s : UInt8)
    (status warnings : Nat) (ps : List Bytes) (r : List Rx) (hrs : rs.okPacket = none) :
    rs.next rd (c.feed s (Spec.terminator status warnings :: ps) r)
      = (.ok ({ rs with okPacket := some (eofSeen status warnings) }, none),
         { c.feed (s + 1) ps r with pendingResult := false }) := by
  have hf := frameCount_term status warnings
  unfold RSet.next
  rw [hrs, if_neg (by simp), SM.bind_of_ok (readPacket_feed c s _ ps r), SM.get_bind_apply,
    isLast_term, SM.ofOut_ok_bind_apply, if_pos rfl, readEof_term, hf]
  rfl

theorem next_done {R : Type} (rd : RowReader R) (rs : RSet) (c : Conn)
    (h : rs.okPacket ≠ none) : rs.next rd c = (.ok (rs, none), c) := by
  unfold RSet.next
  rw [if_pos (by cases h' : rs.okPacket <;> simp_all)]
  rfl

/-- how a list of row packets is decoded. -/
def RowsAs {R : Type} (rd : RowReader R) (cols : List Column) (ps : List Bytes) (xs : List R) : Prop :=
  List.Forall₂ (fun p x => Spec.IsRow p ∧ ∃ vs, rd.row p cols = .ok vs ∧ rd.build cols vs = .ok x)
    ps xs

theorem collectLoop_rows {R : Type} (rd : RowReader R) (rs : RSet) (c : Conn) (s : UInt8)
    (ps qs : List Bytes) (xs : List R) (status warnings : Nat) (r : List Rx) (fuel : Nat)
    (hrs : rs.okPacket = none) (h : RowsAs rd rs.columns ps xs) (hf : ps.length < fuel) :
    rs.collectLoop rd fuel (c.feed s (ps ++ Spec.terminator status warnings :: qs) r)
      = (.ok ({ rs with okPacket := some (eofSeen status warnings) }, xs),
         { c.feed (Spec.seqAfter s ps + 1) qs r with pendingResult := false }) := by
  unfold RowsAs at h
  induction h generalizing s fuel with
  | nil =>
    cases fuel with
    | zero => simp at hf
    | succ fuel =>
      unfold RSet.collectLoop
      rw [List.nil_append, SM.bind_of_ok (next_term rd rs c s status warnings qs r hrs)]
      rfl
  | @cons p x ps xs hp _ ih =>
    obtain ⟨h1, vs, h2, h3⟩ := hp
    cases fuel with
    | zero => simp at hf
    | succ fuel =>
      unfold RSet.collectLoop
      rw [List.cons_append, SM.bind_of_ok (next_row rd rs c s p _ r hrs h1 h2 h3)]
      dsimp only
      rw [SM.bind_of_ok (ih _ fuel (by simpa using hf))]
      rfl

theorem feed_rx_length (c : Conn) (s : UInt8) (ps : List Bytes) (r : List Rx) :
    ps.length ≤ (c.feed s ps r).rx.length := by
  have := framesAll_length s ps
  simp only [List.length_append, length_rxOf]
  omega

theorem collect_rows {R : Type} (rd : RowReader R) (rs : RSet) (c : Conn) (s : UInt8)
    (ps qs : List Bytes) (xs : List R) (status warnings : Nat) (r : List Rx)
    (hrs : rs.okPacket = none) (h : RowsAs rd rs.columns ps xs) :
    rs.collect rd (c.feed s (ps ++ Spec.terminator status warnings :: qs) r)
      = (.ok ({ rs with okPacket := some (eofSeen status warnings) }, xs),
         { c.feed (Spec.seqAfter s ps + 1) qs r with pendingResult := false }) := by
  unfold RSet.collect
  have := feed_rx_length c s (ps ++ Spec.terminator status warnings :: qs) r
  rw [List.length_append] at this
  exact collectLoop_rows rd rs c s ps qs xs status warnings r _ hrs h (by omega)

/-- draining does not care how rows decode. -/
theorem cleanup_rows (c : Conn) (s : UInt8) (ps qs : List Bytes) (status warnings : Nat)
    (r : List Rx) (h : ∀ p ∈ ps, Spec.IsRow p) (hp : c.pendingResult = true) :
    cleanup (c.feed s (ps ++ Spec.terminator status warnings :: qs) r)
      = (.ok (some (eofSeen status warnings)),
         { c.feed (Spec.seqAfter s ps + 1) qs r with pendingResult := false }) := by
  have key : ∀ (fuel : Nat) (s : UInt8), ps.length < fuel →
      cleanupLoop fuel (c.feed s (ps ++ Spec.terminator status warnings :: qs) r)
      = (.ok (eofSeen status warnings),
         { c.feed (Spec.seqAfter s ps + 1) qs r with pendingResult := false }) := by
    induction ps with
    | nil =>
      intro fuel s hf
      cases fuel with
      | zero => simp at hf
      | succ fuel =>
        have hfc := frameCount_term status warnings
        unfold cleanupLoop
        rw [List.nil_append, SM.bind_of_ok (readPacket_feed c s _ qs r), SM.get_bind_apply,
          isLast_term, SM.ofOut_ok_bind_apply, if_pos rfl, SM.modify_bind_apply, readEof_term, hfc]
        rfl
    | cons p ps ih =>
      intro fuel s hf
      cases fuel with
      | zero => simp at hf
      | succ fuel =>
        unfold cleanupLoop
        rw [List.cons_append, SM.bind_of_ok (readPacket_feed c s _ _ r), SM.get_bind_apply,
          isLast_row _ (h p (by simp)), SM.ofOut_ok_bind_apply, if_neg (by simp),
          ih (fun q hq => h q (by simp [hq])) fuel _ (by simpa using hf)]
        rfl
  unfold cleanup
  have := feed_rx_length c s (ps ++ Spec.terminator status warnings :: qs) r
  rw [List.length_append] at this
  rw [if_pos hp, SM.bind_of_ok (key _ s (by omega))]
  rfl

theorem cleanup_clean (c : Conn) (h : c.pendingResult = false) : cleanup c = (.ok none, c) := by
  unfold cleanup; rw [if_neg (by simp [h])]

/-- sending a command on a connection without pending rows. -/
theorem executeCommand_clean (cmd : Command) (data : Bytes) (c : Conn) (hp : c.pendingResult = false)
    (hw : c.wfaults = []) :
    executeCommand cmd data c = (.ok (), { c with
      tx := c.tx ++ Spec.frames 0 (cmd.toByte :: data),
      seqId := UInt8.ofNat (Spec.frameCount (cmd.toByte :: data)) }) := by
  unfold executeCommand
  rw [SM.bind_of_ok (cleanup_clean c hp), SM.modify_bind_apply, writePacket_ok _ _ (by simpa using hw)]
  simp

theorem writeCommand_clean (bytes : Bytes) (c : Conn) (hp : c.pendingResult = false)
    (hw : c.wfaults = []) :
    writeCommand bytes c = (.ok (), { c with
      tx := c.tx ++ Spec.frames 0 bytes,
      seqId := UInt8.ofNat (Spec.frameCount bytes) }) := by
  unfold writeCommand
  rw [SM.bind_of_ok (cleanup_clean c hp), SM.modify_bind_apply, writePacket_ok _ _ (by simpa using hw)]
  simp

/-! ### Reading the head of a result set -/

/-- the column a definition describes. -/
def columnOf (d : Spec.ColDesc) (t : ColumnType) : Column :=
  { orgName := d.orgName, name := d.name, orgTable := d.orgTable, table := d.table, type := t,
    flags := UInt16.ofNat d.flags }

/-- a description the decoder handles, and the type it denotes. -/
def DescOk (d : Spec.ColDesc) (t : ColumnType) : Prop :=
  shortNames d ∧ d.code = t.toByte.toNat ∧ d.flags < 2 ^ 16 ∧ d.charset < 2 ^ 16 ∧ d.length < 2 ^ 32

/-- descriptions and the columns they denote. -/
def DescsAs (ds : List Spec.ColDesc) (cols : List Column) : Prop :=
  List.Forall₂ (fun d col => ∃ t, DescOk d t ∧ col = columnOf d t) ds cols

theorem readColumnDefs_spec (ds : List Spec.ColDesc) (cols : List Column) (c : Conn) (s : UInt8)
    (ps : List Bytes) (r : List Rx) (h : DescsAs ds cols) :
    readColumnDefs ds.length (c.feed s (ds.map Spec.colDef ++ ps) r)
      = (.ok cols, c.feed (Spec.seqAfter s (ds.map Spec.colDef)) ps r) := by
  unfold DescsAs at h
  induction h generalizing s with
  | nil => rfl
  | @cons d col ds cols hd _ ih =>
    obtain ⟨t, ⟨hn, ht, hf, hc, hl⟩, rfl⟩ := hd
    have := colDef_spec d t [] hn ht hf hc hl
    rw [List.append_nil] at this
    rw [List.length_cons, readColumnDefs, List.map_cons, List.cons_append,
      SM.bind_of_ok (readPacket_feed c s _ _ r), this]
    unfold liftP
    rw [Out.mapErr_ok, SM.ofOut_ok_bind_apply, SM.bind_of_ok (ih _)]
    rfl

end Verif

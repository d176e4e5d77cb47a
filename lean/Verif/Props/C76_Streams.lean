import Verif.Spec.Streams
import Verif.Proofs.Handshake
import Verif.Props.C53_NoPanic
import Verif.Props.C73_Packets
import Verif.Props.C74_TextExact
import Verif.Props.C75_BinExact

/-!
# C76 — what any stream of bytes is taken for

C12, C14, C15 and C18 say what the client makes of the answers of a server that follows the protocol. Here the bytes
are arbitrary: a call succeeds, reports a server error or panics exactly if the stream begins with certain packets.
-/

namespace Verif

open Decodes (Ends)

/-! ### Packets -/

/-- A packet is read exactly if its frames are next, with the expected numbers. -/
theorem C76_packet (c c' : Conn) (p : Bytes) : readPacket c = (.ok p, c') ↔ Spec.Took c [p] c' := by
  constructor
  · intro h
    obtain ⟨h1, h2⟩ := readPacket_eq_ok h
    refine ⟨c'.rx, ?_, h2⟩
    rw [h1]
    simp [Spec.framesAll, rxOf]
  · rintro ⟨rest, h, rfl⟩
    exact readPacket_frames p rest c (by rw [h]; simp [Spec.framesAll, rxOf])

theorem Took.nil (c c' : Conn) : Spec.Took c [] c' ↔ c' = c := by
  constructor
  · rintro ⟨rest, h, rfl⟩
    cases c
    simp only [Spec.framesAll, List.map_nil, List.nil_append] at h
    subst h
    rfl
  · rintro rfl
    exact ⟨c'.rx, rfl, rfl⟩

theorem Took.append (c : Conn) (ps qs : List Bytes) (c' : Conn) :
    Spec.Took c (ps ++ qs) c' ↔ ∃ c1, Spec.Took c ps c1 ∧ Spec.Took c1 qs c' := by
  unfold Spec.Took
  rw [framesAll_append, seqAfter_append]
  constructor
  · rintro ⟨rest, h, rfl⟩
    exact ⟨_, ⟨(Spec.framesAll (Spec.seqAfter c.seqId ps) qs).map Rx.byte ++ rest, by rw [h]; simp, rfl⟩,
      ⟨rest, rfl, rfl⟩⟩
  · rintro ⟨_, ⟨r1, h, rfl⟩, ⟨r2, h2, rfl⟩⟩
    exact ⟨r2, by rw [h]; dsimp only at h2; rw [h2]; simp, rfl⟩

theorem Took.cons (c : Conn) (p : Bytes) (ps : List Bytes) (c' : Conn) :
    Spec.Took c (p :: ps) c' ↔ ∃ c1, Spec.Took c [p] c1 ∧ Spec.Took c1 ps c' :=
  Took.append c [p] ps c'

theorem Took.length {c c' : Conn} {ps : List Bytes} (h : Spec.Took c ps c') : ps.length ≤ c.rx.length := by
  obtain ⟨rest, h, -⟩ := h
  have := framesAll_length c.seqId ps
  rw [h]
  simp only [List.length_append, List.length_map]
  omega

theorem Took.caps {c c' : Conn} {ps : List Bytes} (h : Spec.Took c ps c') : c'.data = c.data := by
  obtain ⟨rest, h, rfl⟩ := h
  rfl

theorem Took.pend (c : Conn) (b : Bool) (ps : List Bytes) (c' : Conn) :
    Spec.Took { c with pendingResult := b } ps c' ↔
      ∃ c1, Spec.Took c ps c1 ∧ c' = { c1 with pendingResult := b } := by
  constructor
  · rintro ⟨rest, h, rfl⟩
    exact ⟨_, ⟨rest, h, rfl⟩, rfl⟩
  · rintro ⟨_, ⟨rest, h, rfl⟩, rfl⟩
    exact ⟨rest, h, rfl⟩

/-- the packets of a stream are determined. -/
theorem Took.det {c c1 c2 : Conn} {p q : Bytes} (h1 : Spec.Took c [p] c1) (h2 : Spec.Took c [q] c2) :
    p = q ∧ c1 = c2 := by
  have e1 := (C76_packet _ _ _).2 h1
  have e2 := (C76_packet _ _ _).2 h2
  rw [e1] at e2
  cases e2
  exact ⟨rfl, rfl⟩

/-! ### Calls that begin with a packet -/

theorem packet_ok {α : Type} (k : Bytes → M α) (c c' : Conn) (x : α) :
    (readPacket >>= k) c = (.ok x, c') ↔ ∃ p c1, Spec.Took c [p] c1 ∧ k p c1 = (.ok x, c') := by
  rw [SM.bind_eq_ok]
  simp only [C76_packet]

theorem packet_panic {α : Type} (k : Bytes → M α) (c c' : Conn) :
    (readPacket >>= k) c = (.panic, c') ↔ ∃ p c1, Spec.Took c [p] c1 ∧ k p c1 = (.panic, c') := by
  cases h : readPacket c with
  | mk o c1 =>
    cases o with
    | ok p =>
      rw [SM.bind_of_ok h]
      have ht := (C76_packet _ _ _).1 h
      constructor
      · intro e
        exact ⟨p, c1, ht, e⟩
      · rintro ⟨q, c2, hq, e⟩
        obtain ⟨rfl, rfl⟩ := Took.det ht hq
        exact e
    | err e =>
      rw [SM.bind_of_err h]
      constructor
      · intro e
        cases e
      · rintro ⟨q, c2, hq, e⟩
        rw [(C76_packet _ _ _).2 hq] at h
        cases h
    | panic => exact absurd (congrArg Prod.fst h) (readPacket_not_panic c)

/-- errors of the packet layer are not errors of the server. -/
def Local {α : Type} (m : M α) : Prop := ∀ c c' e, m c ≠ (.err (.server e), c')

theorem Local.bind {α β : Type} {m : M α} {k : α → M β} (hm : Local m) (hk : ∀ a, Local (k a)) :
    Local (m >>= k) := by
  intro c c' e h
  cases h1 : m c with
  | mk o c1 =>
    cases o with
    | ok a => rw [SM.bind_of_ok h1] at h; exact hk a _ _ _ h
    | err e' => rw [SM.bind_of_err h1] at h; cases h; exact hm _ _ _ h1
    | panic => rw [SM.bind_of_panic h1] at h; cases h

theorem Local.readExact (n : Nat) : Local (Verif.readExact n) := by
  intro c c' e h
  unfold Verif.readExact at h
  dsimp only at h
  cases h1 : (takeRx n c.rx).1 with
  | ok a => rw [h1] at h; cases h
  | err a => rw [h1] at h; cases h
  | panic => rw [h1] at h; cases h

theorem Local.pure {α : Type} (a : α) : Local (pure a : M α) := by intro c c' e h; cases h
theorem Local.crash {α : Type} : Local (SM.crash : M α) := by intro c c' e h; cases h
theorem Local.get : Local (SM.get : M Conn) := by intro c c' e h; cases h
theorem Local.modify (f : Conn → Conn) : Local (SM.modify f : M Unit) := by intro c c' e h; cases h

theorem Local.liftP {α : Type} (x : Out ProtocolError α) : Local (Verif.liftP x) := by
  intro c c' e h
  cases x <;> cases h

theorem Local.liftParse {α : Type} (x : Out ParseError α) : Local (Verif.liftParse x) := by
  intro c c' e h
  cases x <;> cases h

theorem Local.fail {α : Type} (e : ProtocolError) : Local (SM.fail (.protocol e) : M α) := by
  intro c c' e h
  cases h

theorem Local.readChunk (dst : Bytes) : Local (Verif.readChunk dst) := by
  unfold Verif.readChunk
  refine Local.bind (Local.readExact _) fun md => ?_
  split
  · dsimp only
    split
    · exact Local.pure _
    · refine Local.bind (Local.readExact _) fun chunk => ?_
      split
      · exact Local.pure _
      · exact Local.pure _
  · exact Local.crash

theorem Local.readPacketLoop (fuel : Nat) (dst : Bytes) : Local (Verif.readPacketLoop fuel dst) := by
  induction fuel generalizing dst with
  | zero => exact Local.crash
  | succ fuel ih =>
    unfold Verif.readPacketLoop
    refine Local.bind (Local.readChunk _) fun x => Local.bind Local.get fun c => ?_
    split
    · exact Local.fail _
    · refine Local.bind (Local.modify _) fun _ => ?_
      split
      · exact Local.pure _
      · exact ih _

theorem Local.readPacket : Local Verif.readPacket := fun c => Local.readPacketLoop _ _ c

theorem packet_server {α : Type} (k : Bytes → M α) (c c' : Conn) (e : ErrPacket) :
    (readPacket >>= k) c = (.err (.server e), c') ↔
      ∃ p c1, Spec.Took c [p] c1 ∧ k p c1 = (.err (.server e), c') := by
  cases h : readPacket c with
  | mk o c1 =>
    cases o with
    | ok p =>
      rw [SM.bind_of_ok h]
      have ht := (C76_packet _ _ _).1 h
      constructor
      · intro e
        exact ⟨p, c1, ht, e⟩
      · rintro ⟨q, c2, hq, e⟩
        obtain ⟨rfl, rfl⟩ := Took.det ht hq
        exact e
    | err e' =>
      rw [SM.bind_of_err h]
      constructor
      · intro e
        cases e
        exact absurd h (Local.readPacket _ _ _)
      · rintro ⟨q, c2, hq, e⟩
        rw [(C76_packet _ _ _).2 hq] at h
        cases h
    | panic => exact absurd (congrArg Prod.fst h) (readPacket_not_panic c)

/-! ### Answers: OK or error -/

theorem readOk_zero {caps : UInt32} {p : Bytes} {ok : OkPacket} (h : runP (OkPacket.readOk caps) p = .ok ok) :
    ∃ t, p = 0x00 :: t := by
  obtain ⟨a, l, s, rest, _, _, _, e, _⟩ := (C73_ok caps p _ _ _ _ _).1 ⟨ok, h, rfl, rfl, rfl, rfl, rfl⟩
  rw [e]
  exact ⟨_, rfl⟩

theorem errPacket_ff {caps : UInt32} {p : Bytes} {e : ErrPacket} (h : runP (ErrPacket.deserialize caps) p = .ok e) :
    ∃ t, p = 0xFF :: t := by
  obtain ⟨code, rest, rfl, _⟩ := (errPacket_ends caps p _).1 h
  exact ⟨_, rfl⟩

theorem liftP_ok {α β : Type} (x : Out ProtocolError α) (k : α → M β) (c c' : Conn) (y : β) :
    (liftP x >>= k) c = (.ok y, c') ↔ ∃ a, x = .ok a ∧ k a c = (.ok y, c') := by
  cases x with
  | ok a =>
    constructor
    · intro h
      exact ⟨a, rfl, h⟩
    · rintro ⟨_, e, h⟩
      cases e
      exact h
  | err e =>
    constructor
    · intro h
      cases h
    · rintro ⟨_, e, _⟩
      cases e
  | panic =>
    constructor
    · intro h
      cases h
    · rintro ⟨_, e, _⟩
      cases e

theorem liftP_server {α β : Type} (x : Out ProtocolError α) (k : α → M β) (c c' : Conn) (s : ErrPacket) :
    (liftP x >>= k) c = (.err (.server s), c') ↔ ∃ a, x = .ok a ∧ k a c = (.err (.server s), c') := by
  cases x with
  | ok a =>
    constructor
    · intro h
      exact ⟨a, rfl, h⟩
    · rintro ⟨_, e, h⟩
      cases e
      exact h
  | err e =>
    constructor
    · intro h
      cases h
    · rintro ⟨_, e, _⟩
      cases e
  | panic =>
    constructor
    · intro h
      cases h
    · rintro ⟨_, e, _⟩
      cases e

theorem decode_ok (p : Bytes) (c c' : Conn) (ok : OkPacket) :
    (decodeResponse p >>= okOrServerError) c = (.ok ok, c') ↔
      c' = c ∧ runP (OkPacket.readOk c.data.capabilities) p = .ok ok := by
  unfold decodeResponse
  rw [SM.bind_assoc, SM.get_bind_apply]
  cases p with
  | nil =>
    constructor
    · intro h
      cases h
    · rintro ⟨_, h⟩
      cases h
  | cons b p =>
    dsimp only
    by_cases h0 : b = 0x00
    · rw [if_pos h0, SM.bind_assoc, liftP_ok]
      constructor
      · rintro ⟨a, h1, h2⟩
        cases h2
        exact ⟨rfl, h1⟩
      · rintro ⟨rfl, h⟩
        exact ⟨_, h, rfl⟩
    · have hn : ∀ ok, runP (OkPacket.readOk c.data.capabilities) (b :: p) ≠ .ok ok := by
        intro ok h
        obtain ⟨t, e⟩ := readOk_zero h
        cases e
        exact h0 rfl
      rw [if_neg h0]
      constructor
      · intro h
        split at h
        · rw [SM.bind_assoc, liftP_ok] at h
          obtain ⟨a, _, h⟩ := h
          cases h
        · cases h
      · rintro ⟨_, h⟩
        exact absurd h (hn ok)

theorem decode_server (p : Bytes) (c c' : Conn) (e : ErrPacket) :
    (decodeResponse p >>= okOrServerError) c = (.err (.server e), c') ↔
      c' = c ∧ runP (ErrPacket.deserialize c.data.capabilities) p = .ok e := by
  unfold decodeResponse
  rw [SM.bind_assoc, SM.get_bind_apply]
  cases p with
  | nil =>
    constructor
    · intro h
      cases h
    · rintro ⟨_, h⟩
      cases h
  | cons b p =>
    dsimp only
    by_cases h0 : b = 0x00
    · rw [if_pos h0, SM.bind_assoc, liftP_server]
      constructor
      · rintro ⟨a, h1, h2⟩
        cases h2
      · rintro ⟨_, h⟩
        obtain ⟨t, e⟩ := errPacket_ff h
        rw [h0] at e
        cases e
    · rw [if_neg h0]
      by_cases h1 : b = 0xFF
      · rw [if_pos h1, SM.bind_assoc, liftP_server]
        constructor
        · rintro ⟨a, h1, h2⟩
          cases h2
          exact ⟨rfl, h1⟩
        · rintro ⟨rfl, h⟩
          exact ⟨_, h, rfl⟩
      · rw [if_neg h1]
        constructor
        · intro h
          cases h
        · rintro ⟨_, h⟩
          obtain ⟨t, e⟩ := errPacket_ff h
          cases e
          exact absurd rfl h1

theorem response_ok (c c' : Conn) (ok : OkPacket) :
    (readResponse >>= okOrServerError) c = (.ok ok, c') ↔
      ∃ p, Spec.Took c [p] c' ∧ runP (OkPacket.readOk c.data.capabilities) p = .ok ok := by
  unfold readResponse
  rw [SM.bind_assoc, packet_ok]
  constructor
  · rintro ⟨p, c1, h1, h2⟩
    obtain ⟨rfl, h2⟩ := (decode_ok _ _ _ _).1 h2
    exact ⟨p, h1, by rw [← Took.caps h1]; exact h2⟩
  · rintro ⟨p, h1, h2⟩
    exact ⟨p, c', h1, (decode_ok _ _ _ _).2 ⟨rfl, by rw [Took.caps h1]; exact h2⟩⟩

theorem response_server (c c' : Conn) (e : ErrPacket) :
    (readResponse >>= okOrServerError) c = (.err (.server e), c') ↔
      ∃ p, Spec.Took c [p] c' ∧ runP (ErrPacket.deserialize c.data.capabilities) p = .ok e := by
  unfold readResponse
  rw [SM.bind_assoc, packet_server]
  constructor
  · rintro ⟨p, c1, h1, h2⟩
    obtain ⟨rfl, h2⟩ := (decode_server _ _ _ _).1 h2
    exact ⟨p, h1, by rw [← Took.caps h1]; exact h2⟩
  · rintro ⟨p, h1, h2⟩
    exact ⟨p, c', h1, (decode_server _ _ _ _).2 ⟨rfl, by rw [Took.caps h1]; exact h2⟩⟩

theorem errForm_iff (caps : UInt32) (p : Bytes) (code : UInt16) (state : Option Bytes) (msg : Str) :
    runP (ErrPacket.deserialize caps) p = .ok (.error code state msg) ↔ Spec.ErrForm caps p code state msg := by
  rw [C73_error, hasFlag32_eq caps Cap.PROTOCOL_41 9 (by decide), hasFlag32_eq caps Cap.PROGRESS_OBSOLETE 29 (by decide)]
  rfl

/-- **C76**, statements without rows: success is reported exactly if the answer is an OK packet, and what is reported
is what it says, … -/
theorem C76_execute_ok (sql : Str) (c c' : Conn) (hp : c.pendingResult = false) (hw : c.wfaults = [])
    (affected lastId : UInt64) (status warnings : UInt16) (message : Option Str) :
    (∃ ok, executeQuery sql c = (.ok ok, c') ∧ ok.affectedRows = affected ∧ ok.lastInsertId = lastId ∧
        ok.status = status ∧ ok.warnings = warnings ∧ ok.message = message) ↔
      ∃ p, Spec.Took (Spec.sent c (0x03 :: utf8 sql)) [p] c' ∧
        Spec.OkForm p affected lastId status warnings message := by
  unfold executeQuery
  rw [SM.bind_of_ok (executeCommand_clean .query (utf8 sql) c hp hw)]
  change (∃ ok, (readResponse >>= okOrServerError) (Spec.sent c (0x03 :: utf8 sql)) = _ ∧ _) ↔ _
  simp only [response_ok]
  constructor
  · rintro ⟨ok, ⟨p, h1, h2⟩, h3⟩
    exact ⟨p, h1, (C73_ok _ _ _ _ _ _ _).1 ⟨ok, h2, h3⟩⟩
  · rintro ⟨p, h1, h2⟩
    obtain ⟨ok, h3, h4⟩ := (C73_ok (Spec.sent c (0x03 :: utf8 sql)).data.capabilities _ _ _ _ _ _).2 h2
    exact ⟨ok, ⟨p, h1, h3⟩, h4⟩

/-- … and an error of the server exactly if the answer is an ERR packet, with its code, state and message. -/
theorem C76_execute_error (sql : Str) (c c' : Conn) (hp : c.pendingResult = false) (hw : c.wfaults = [])
    (code : UInt16) (state : Option Bytes) (msg : Str) :
    executeQuery sql c = (.err (.server (.error code state msg)), c') ↔
      ∃ p, Spec.Took (Spec.sent c (0x03 :: utf8 sql)) [p] c' ∧
        Spec.ErrForm c.data.capabilities p code state msg := by
  unfold executeQuery
  rw [SM.bind_of_ok (executeCommand_clean .query (utf8 sql) c hp hw)]
  change (readResponse >>= okOrServerError) (Spec.sent c (0x03 :: utf8 sql)) = _ ↔ _
  simp only [response_server, errForm_iff]
  rfl

/-! ### Preparing -/

theorem skipPackets_took (n : Nat) (c c' : Conn) :
    skipPackets n c = (.ok (), c') ↔ ∃ ds, ds.length = n ∧ Spec.Took c ds c' := by
  induction n generalizing c with
  | zero =>
    constructor
    · intro h
      cases h
      exact ⟨[], rfl, (Took.nil _ _).2 rfl⟩
    · rintro ⟨ds, h1, h2⟩
      obtain rfl := List.length_eq_zero_iff.1 h1
      rw [(Took.nil _ _).1 h2]
      rfl
  | succ n ih =>
    unfold skipPackets
    rw [packet_ok]
    simp only [ih]
    constructor
    · rintro ⟨p, c1, h1, ds, h2, h3⟩
      exact ⟨p :: ds, by rw [List.length_cons, h2], (Took.cons _ _ _ _).2 ⟨c1, h1, h3⟩⟩
    · rintro ⟨ds, h1, h2⟩
      cases ds with
      | nil => cases h1
      | cons p ds =>
        obtain ⟨c1, h3, h4⟩ := (Took.cons _ _ _ _).1 h2
        exact ⟨p, c1, h3, ds, Nat.succ.inj h1, h4⟩

/-- the answer to a request to prepare. -/
def prepAnswer : M Prepared := do
  let packet ← readPacket
  let c ← SM.get
  match packet with
  | b :: _ =>
    if b = 0x00 then do
      let stmt ← liftP (runP Stmt.deserialize packet)
      skipPackets (stmt.paramsLen.toNat + stmt.columnsLen.toNat)
      pure { id := stmt.id, params := stmt.paramsLen.toNat }
    else if b = 0xFF then do
      let e ← liftP (runP (ErrPacket.deserialize c.data.capabilities) packet)
      SM.fail (.server e)
    else SM.fail (.protocol (.unexpectedPacket packet))
  | [] => SM.fail (.protocol (.unexpectedPacket packet))

theorem prepare_eq (sql : Str) :
    prepareStatement sql = executeCommand .stmtPrepare (utf8 sql) >>= fun _ => prepAnswer := rfl

theorem prepAnswer_ok (c c' : Conn) (st : Prepared) :
    prepAnswer c = (.ok st, c') ↔
      ∃ p defs, Spec.Took c (p :: defs) c' ∧ Spec.StmtForm p st.id st.params defs.length := by
  unfold prepAnswer
  rw [packet_ok]
  constructor
  · rintro ⟨p, c1, h1, h2⟩
    rw [SM.get_bind_apply] at h2
    cases p with
    | nil => cases h2
    | cons b p =>
      dsimp only at h2
      split at h2
      · rename_i hb
        subst hb
        rw [liftP_ok] at h2
        obtain ⟨a, h3, h4⟩ := h2
        obtain ⟨_, c2, h5, h6⟩ := SM.bind_eq_ok.1 h4
        cases h6
        obtain ⟨ds, h7, h8⟩ := (skipPackets_took _ _ _).1 h5
        refine ⟨0 :: p, ds, (Took.cons _ _ _ _).2 ⟨c1, h1, h8⟩, ?_⟩
        obtain ⟨h, f, rest, e⟩ := (C73_prepared _ _).1 h3
        refine ⟨a.columnsLen, a.paramsLen, a.warningCount, f, rest, rfl, h7, ?_⟩
        rw [e]
        have : h = 0 := by
          have e' := congrArg List.head? e
          simp at e'
          exact e'.symm
        rw [this]
      · split at h2
        · rw [liftP_ok] at h2
          obtain ⟨_, _, h⟩ := h2
          cases h
        · cases h2
  · rintro ⟨p, ds, h1, cols, params, w, f, rest, e1, e2, e3⟩
    obtain ⟨c1, h2, h3⟩ := (Took.cons _ _ _ _).1 h1
    refine ⟨p, c1, h2, ?_⟩
    have h4 := (C73_prepared p ⟨st.id, cols, params, w⟩).2 ⟨0, f, rest, e3⟩
    rw [SM.get_bind_apply]
    obtain ⟨t, et⟩ : ∃ t, p = 0 :: t := ⟨_, e3⟩
    rw [et] at h4 ⊢
    dsimp only
    rw [if_pos rfl, liftP_ok]
    refine ⟨_, h4, ?_⟩
    rw [SM.bind_of_ok ((skipPackets_took _ _ _).2 ⟨ds, e2, h3⟩)]
    dsimp only
    rw [← e1]
    rfl

theorem prepAnswer_server (c c' : Conn) (code : UInt16) (state : Option Bytes) (msg : Str) :
    prepAnswer c = (.err (.server (.error code state msg)), c') ↔
      ∃ p, Spec.Took c [p] c' ∧ Spec.ErrForm c.data.capabilities p code state msg := by
  unfold prepAnswer
  rw [packet_server]
  have hskip : ∀ n, Local (skipPackets n) := by
    intro n
    induction n with
    | zero => exact Local.pure _
    | succ n ih => exact Local.bind Local.readPacket fun _ => ih
  constructor
  · rintro ⟨p, c1, h1, h2⟩
    rw [SM.get_bind_apply] at h2
    cases p with
    | nil => cases h2
    | cons b p =>
      dsimp only at h2
      split at h2
      · exact absurd h2 (Local.bind (Local.liftP _) (fun a => Local.bind (hskip _) fun _ => Local.pure _) _ _ _)
      · split at h2
        · rw [liftP_server] at h2
          obtain ⟨a, h3, h4⟩ := h2
          cases h4
          refine ⟨_, h1, ?_⟩
          rw [← errForm_iff]
          rw [Took.caps h1] at h3
          exact h3
        · cases h2
  · rintro ⟨p, h1, h2⟩
    refine ⟨p, c', h1, ?_⟩
    rw [← errForm_iff] at h2
    obtain ⟨t, rfl⟩ := errPacket_ff h2
    rw [SM.get_bind_apply]
    dsimp only
    rw [if_neg (by decide), if_pos rfl, liftP_server]
    refine ⟨_, ?_, rfl⟩
    rw [Took.caps h1]
    exact h2

/-- **C76**, preparing: a statement is returned exactly if the answer says so in its first packet and as many packets
follow as it announces; nothing is asked of those. -/
theorem C76_prepare (sql : Str) (c c' : Conn) (hp : c.pendingResult = false) (hw : c.wfaults = []) (st : Prepared) :
    prepareStatement sql c = (.ok st, c') ↔
      ∃ p defs, Spec.Took (Spec.sent c (0x16 :: utf8 sql)) (p :: defs) c' ∧ Spec.StmtForm p st.id st.params defs.length := by
  rw [prepare_eq, SM.bind_of_ok (executeCommand_clean .stmtPrepare (utf8 sql) c hp hw)]
  exact prepAnswer_ok _ _ _

/-- … and an error of the server exactly if it is an ERR packet. -/
theorem C76_prepare_error (sql : Str) (c c' : Conn) (hp : c.pendingResult = false) (hw : c.wfaults = [])
    (code : UInt16) (state : Option Bytes) (msg : Str) :
    prepareStatement sql c = (.err (.server (.error code state msg)), c') ↔
      ∃ p, Spec.Took (Spec.sent c (0x16 :: utf8 sql)) [p] c' ∧
        Spec.ErrForm c.data.capabilities p code state msg := by
  rw [prepare_eq, SM.bind_of_ok (executeCommand_clean .stmtPrepare (utf8 sql) c hp hw)]
  exact prepAnswer_server _ _ _ _ _

/-! ### The head of a result set -/

theorem readColumnDefs_took (n : Nat) (c c' : Conn) (cols : List Column) :
    readColumnDefs n c = (.ok cols, c') ↔
      ∃ ds, ds.length = n ∧ Spec.Took c ds c' ∧
        List.Forall₂ (fun p col => ∃ d, Spec.ColumnForm p d ∧ col = Column.ofDef d) ds cols := by
  induction n generalizing c cols with
  | zero =>
    constructor
    · intro h
      cases h
      exact ⟨[], rfl, (Took.nil _ _).2 rfl, .nil⟩
    · rintro ⟨ds, h1, h2, h3⟩
      obtain rfl := List.length_eq_zero_iff.1 h1
      cases h3
      rw [(Took.nil _ _).1 h2]
      rfl
  | succ n ih =>
    unfold readColumnDefs
    rw [packet_ok]
    constructor
    · rintro ⟨p, c1, h1, h2⟩
      rw [liftP_ok] at h2
      obtain ⟨d, h3, h4⟩ := h2
      obtain ⟨cs, c2, h5, h6⟩ := SM.bind_eq_ok.1 h4
      cases h6
      obtain ⟨ds, h7, h8, h9⟩ := (ih _ _).1 h5
      exact ⟨p :: ds, by rw [List.length_cons, h7], (Took.cons _ _ _ _).2 ⟨c1, h1, h8⟩,
        .cons ⟨d, (C73_column _ _).1 h3, rfl⟩ h9⟩
    · rintro ⟨ds, h1, h2, h3⟩
      cases h3 with
      | nil => cases h1
      | cons h4 h5 =>
        obtain ⟨d, h6, rfl⟩ := h4
        obtain ⟨c1, h7, h8⟩ := (Took.cons _ _ _ _).1 h2
        refine ⟨_, c1, h7, ?_⟩
        rw [liftP_ok]
        refine ⟨d, (C73_column _ _).2 h6, ?_⟩
        rw [SM.bind_of_ok ((ih _ _).2 ⟨_, Nat.succ.inj h1, h8, h5⟩)]
        rfl

/-- what `RSet.read` does with a packet that is neither OK nor ERR nor a request for a file. -/
def headRest (packet : Bytes) : M RSet := do
  SM.modify fun c => { c with pendingResult := true }
  let n ← liftP (runP P.checkedEatLenencInt packet)
  let cols ← readColumns n.toNat
  pure { columns := cols, okPacket := none }

theorem columnLimit_eq : columnLimit = Spec.mostColumns := by decide

theorem headRest_ok (p : Bytes) (c c' : Conn) (rs : RSet) :
    headRest p c = (.ok rs, c') ↔ rs.okPacket = none ∧ ∃ ds c1, Spec.Took c ds c1 ∧
      c' = { c1 with pendingResult := true } ∧ ds.length ≤ Spec.mostColumns ∧
      (∃ l rest, Spec.IntForm ds.length l ∧ p = l ++ rest) ∧
      List.Forall₂ (fun p col => ∃ d, Spec.ColumnForm p d ∧ col = Column.ofDef d) ds rs.columns := by
  unfold headRest
  rw [SM.modify_bind_apply, liftP_ok]
  constructor
  · rintro ⟨n, h1, h2⟩
    obtain ⟨cols, c1, h3, h4⟩ := SM.bind_eq_ok.1 h2
    cases h4
    unfold readColumns at h3
    split at h3
    · cases h3
    rename_i hlim
    rw [columnLimit_eq] at hlim
    obtain ⟨ds, h5, h6, h7⟩ := (readColumnDefs_took _ _ _ _).1 h3
    obtain ⟨c2, h8, rfl⟩ := (Took.pend _ _ _ _).1 h6
    obtain ⟨l, rest, h9, rfl⟩ := (lenencInt_reads.run p n).1 h1
    exact ⟨rfl, ds, c2, h8, rfl, by omega, ⟨l, rest, by rw [h5]; exact h9, rfl⟩, h7⟩
  · rintro ⟨h0, ds, c1, h1, rfl, hlim, ⟨l, rest, h2, rfl⟩, h3⟩
    have hl := intForm_lt h2
    have e : (UInt64.ofNat ds.length).toNat = ds.length := by
      rw [UInt64.toNat_ofNat', Nat.mod_eq_of_lt hl]
    refine ⟨UInt64.ofNat ds.length, (lenencInt_reads.run _ _).2 ⟨l, rest, by rw [e]; exact h2, rfl⟩, ?_⟩
    have hr : readColumns ds.length = readColumnDefs ds.length := by
      unfold readColumns
      rw [if_neg (by rw [columnLimit_eq]; omega)]
    rw [e, hr, SM.bind_of_ok ((readColumnDefs_took _ _ _ _).2 ⟨ds, rfl, (Took.pend _ _ _ _).2 ⟨c1, h1, rfl⟩, h3⟩)]
    cases rs
    cases h0
    rfl

theorem Local.headRest (p : Bytes) : Local (Verif.headRest p) := by
  have hc : ∀ n, Local (readColumnDefs n) := by
    intro n
    induction n with
    | zero => exact Local.pure _
    | succ n ih =>
      exact Local.bind Local.readPacket fun _ => Local.bind (Local.liftP _) fun _ => Local.bind ih fun _ => Local.pure _
  have hc' : ∀ n, Local (readColumns n) := by
    intro n
    unfold readColumns
    split
    · exact Local.crash
    · exact hc n
  exact Local.bind (Local.modify _) fun _ => Local.bind (Local.liftP _) fun _ => Local.bind (hc' _) fun _ => Local.pure _

theorem headRest_panic (p : Bytes) (c c' : Conn) : headRest p c = (.panic, c') ↔
    (∃ n l rest, Spec.mostColumns < n ∧ Spec.IntForm n l ∧ p = l ++ rest) ∧ c' = { c with pendingResult := true } := by
  unfold headRest
  rw [SM.modify_bind_apply]
  match e : runP P.checkedEatLenencInt p with
  | .ok n =>
    change (readColumns n.toNat >>= fun cols => pure ({ columns := cols, okPacket := none } : RSet)) _ = _ ↔ _
    constructor
    · intro h
      by_cases hlim : columnLimit < n.toNat
      · have hcr : readColumns n.toNat { c with pendingResult := true } = (.panic, { c with pendingResult := true }) := by
          unfold readColumns
          rw [if_pos hlim]
          rfl
        rw [SM.bind_of_panic hcr] at h
        cases h
        obtain ⟨l, rest, h9, rfl⟩ := (lenencInt_reads.run p n).1 e
        exact ⟨⟨_, l, rest, by rw [← columnLimit_eq]; exact hlim, h9, rfl⟩, rfl⟩
      · exact absurd (congrArg Prod.fst h) (SM.safe_bind (m := readColumns n.toNat)
          (readColumns_safe _ (Nat.le_of_not_lt hlim) _) fun _ _ _ => (by intro h; cases h))
    · rintro ⟨⟨m, l, rest, h1, h2, rfl⟩, rfl⟩
      have hl := intForm_lt h2
      have e' : (UInt64.ofNat m).toNat = m := by rw [UInt64.toNat_ofNat', Nat.mod_eq_of_lt hl]
      have h3 := (lenencInt_reads.run (l ++ rest) (UInt64.ofNat m)).2 ⟨l, rest, by rw [e']; exact h2, rfl⟩
      rw [e] at h3
      cases h3
      refine SM.bind_of_panic ?_
      unfold readColumns
      rw [if_pos (by rw [e', columnLimit_eq]; exact h1)]
      rfl
  | .err x =>
    constructor
    · intro h; cases h
    · rintro ⟨⟨m, l, rest, h1, h2, rfl⟩, rfl⟩
      exfalso
      have hl := intForm_lt h2
      have e' : (UInt64.ofNat m).toNat = m := by rw [UInt64.toNat_ofNat', Nat.mod_eq_of_lt hl]
      have h3 := (lenencInt_reads.run (l ++ rest) (UInt64.ofNat m)).2 ⟨l, rest, by rw [e']; exact h2, rfl⟩
      rw [e] at h3
      cases h3
  | .panic => exact absurd e (lenenc_not_panic p)

theorem read_eq : RSet.read = (readPacket >>= fun packet => SM.get >>= fun c =>
    match packet with
    | b :: _ =>
      if b = 0x00 then do
        let r ← decodeResponse packet
        let ok ← okOrServerError r
        pure { columns := [], okPacket := some ok }
      else if b = 0xFB then SM.crash
      else if b = 0xFF then do
        let e ← liftP (runP (ErrPacket.deserialize c.data.capabilities) packet)
        SM.fail (.server e)
      else headRest packet
    | [] => headRest packet) := rfl

/-- **C76**, queries: rows are announced exactly if the first packet is a number of columns and as many column
definitions follow. -/
theorem C76_head_rows (c c' : Conn) (cols : List Column) :
    RSet.read c = (.ok { columns := cols, okPacket := none }, c') ↔
      ∃ head defs c1, Spec.CountForm defs.length head ∧
        List.Forall₂ (fun p col => ∃ d, Spec.ColumnForm p d ∧ col = Column.ofDef d) defs cols ∧
        Spec.Took c (head :: defs) c1 ∧ c' = { c1 with pendingResult := true } := by
  rw [read_eq, packet_ok]
  constructor
  · rintro ⟨p, c1, h1, h2⟩
    rw [SM.get_bind_apply] at h2
    cases p with
    | nil =>
      obtain ⟨-, ds, c2, -, -, -, ⟨l, rest, h3, h4⟩, -⟩ := (headRest_ok _ _ _ _).1 h2
      have := intForm_ne_nil h3
      simp only [List.nil_eq, List.append_eq_nil_iff] at h4
      exact absurd h4.1 this
    | cons b p =>
      dsimp only at h2
      split at h2
      · obtain ⟨r, c2, h3, h4⟩ := SM.bind_eq_ok.1 h2
        obtain ⟨ok, c3, h5, h6⟩ := SM.bind_eq_ok.1 h4
        cases h6
      · rename_i hb0
        split at h2
        · cases h2
        · rename_i hb1
          split at h2
          · rw [liftP_ok] at h2
            obtain ⟨_, _, h⟩ := h2
            cases h
          · rename_i hb2
            obtain ⟨-, ds, c2, h3, rfl, hlim, ⟨l, rest, h4, h5⟩, h6⟩ := (headRest_ok _ _ _ _).1 h2
            refine ⟨b :: p, ds, c2, ⟨hlim, l, rest, h4, h5, ?_, ?_, ?_⟩, h6, (Took.cons _ _ _ _).2 ⟨c1, h1, h3⟩, rfl⟩
            all_goals
              intro e
              injection e with e
              contradiction
  · rintro ⟨p, ds, c1, ⟨hlim, l, rest, h1, h2, h3, h4, h5⟩, h6, h7, rfl⟩
    obtain ⟨c2, h8, h9⟩ := (Took.cons _ _ _ _).1 h7
    refine ⟨p, c2, h8, ?_⟩
    rw [SM.get_bind_apply]
    have hr := (headRest_ok p c2 { c1 with pendingResult := true } { columns := cols, okPacket := none }).2
      ⟨rfl, ds, c1, h9, rfl, hlim, ⟨l, rest, h1, h2⟩, h6⟩
    cases p with
    | nil => exact hr
    | cons b p =>
      dsimp only
      rw [if_neg (fun e => h3 (by rw [e]; rfl)), if_neg (fun e => h4 (by rw [e]; rfl)),
        if_neg (fun e => h5 (by rw [e]; rfl))]
      exact hr

/-- a result set without rows exactly if it is an OK packet, … -/
theorem C76_head_ok (c c' : Conn) (affected lastId : UInt64) (status warnings : UInt16) (message : Option Str) :
    (∃ rs ok, RSet.read c = (.ok rs, c') ∧ rs = { columns := [], okPacket := some ok } ∧ ok.affectedRows = affected ∧
        ok.lastInsertId = lastId ∧ ok.status = status ∧ ok.warnings = warnings ∧ ok.message = message) ↔
      ∃ p, Spec.Took c [p] c' ∧ Spec.OkForm p affected lastId status warnings message := by
  have key : ∀ ok, RSet.read c = (.ok { columns := [], okPacket := some ok }, c') ↔
      ∃ p, Spec.Took c [p] c' ∧ runP (OkPacket.readOk c.data.capabilities) p = .ok ok := by
    intro ok
    rw [read_eq, packet_ok]
    constructor
    · rintro ⟨p, c1, h1, h2⟩
      rw [SM.get_bind_apply] at h2
      cases p with
      | nil =>
        obtain ⟨h, -⟩ := (headRest_ok _ _ _ _).1 h2
        cases h
      | cons b p =>
        dsimp only at h2
        split at h2
        · obtain ⟨r, c2, h3, h4⟩ := SM.bind_eq_ok.1 h2
          obtain ⟨ok', c3, h5, h6⟩ := SM.bind_eq_ok.1 h4
          cases h6
          obtain ⟨rfl, h7⟩ := (decode_ok _ _ _ _).1 (SM.bind_eq_ok.2 ⟨r, c2, h3, h5⟩)
          exact ⟨_, h1, by rw [← Took.caps h1]; exact h7⟩
        · split at h2
          · cases h2
          · split at h2
            · rw [liftP_ok] at h2
              obtain ⟨_, _, h⟩ := h2
              cases h
            · obtain ⟨h, -⟩ := (headRest_ok _ _ _ _).1 h2
              cases h
    · rintro ⟨p, h1, h2⟩
      refine ⟨p, c', h1, ?_⟩
      obtain ⟨t, rfl⟩ := readOk_zero h2
      rw [SM.get_bind_apply]
      dsimp only
      rw [if_pos rfl]
      obtain ⟨r, c2, h3, h5⟩ := SM.bind_eq_ok.1 ((decode_ok (0 :: t) c' c' ok).2 ⟨rfl, by rw [Took.caps h1]; exact h2⟩)
      rw [SM.bind_of_ok h3, SM.bind_of_ok h5]
      rfl
  constructor
  · rintro ⟨_, ok, h1, rfl, h2⟩
    obtain ⟨p, h3, h4⟩ := (key ok).1 h1
    exact ⟨p, h3, (C73_ok _ _ _ _ _ _ _).1 ⟨ok, h4, h2⟩⟩
  · rintro ⟨p, h1, h2⟩
    obtain ⟨ok, h3, h4⟩ := (C73_ok c.data.capabilities _ _ _ _ _ _).2 h2
    exact ⟨_, ok, (key ok).2 ⟨p, h1, h3⟩, rfl, h4⟩

/-- there is no third kind of result, … -/
theorem C76_head_kinds (c c' : Conn) (rs : RSet) (h : RSet.read c = (.ok rs, c')) :
    rs.okPacket = none ∨ rs.columns = [] := by
  rw [read_eq, packet_ok] at h
  obtain ⟨p, c1, h1, h2⟩ := h
  rw [SM.get_bind_apply] at h2
  cases p with
  | nil => exact Or.inl ((headRest_ok _ _ _ _).1 h2).1
  | cons b p =>
    dsimp only at h2
    split at h2
    · obtain ⟨r, c2, h3, h4⟩ := SM.bind_eq_ok.1 h2
      obtain ⟨ok', c3, h5, h6⟩ := SM.bind_eq_ok.1 h4
      cases h6
      exact Or.inr rfl
    · split at h2
      · cases h2
      · split at h2
        · rw [liftP_ok] at h2
          obtain ⟨_, _, h⟩ := h2
          cases h
        · exact Or.inl ((headRest_ok _ _ _ _).1 h2).1

/-- an error of the server exactly if it is an ERR packet, … -/
theorem C76_head_error (c c' : Conn) (code : UInt16) (state : Option Bytes) (msg : Str) :
    RSet.read c = (.err (.server (.error code state msg)), c') ↔
      ∃ p, Spec.Took c [p] c' ∧ Spec.ErrForm c.data.capabilities p code state msg := by
  rw [read_eq, packet_server]
  constructor
  · rintro ⟨p, c1, h1, h2⟩
    rw [SM.get_bind_apply] at h2
    cases p with
    | nil => exact absurd h2 (Local.headRest _ _ _ _)
    | cons b p =>
      dsimp only at h2
      split at h2
      · rename_i hb
        subst hb
        have h3 : (decodeResponse (0 :: p) >>= okOrServerError) c1 = (.err (.server (.error code state msg)), c') := by
          cases h4 : (decodeResponse (0 :: p) >>= okOrServerError) c1 with
          | mk o c2 =>
            rw [← SM.bind_assoc] at h2
            cases o with
            | ok a => rw [SM.bind_of_ok h4] at h2; cases h2
            | err e => rw [SM.bind_of_err h4] at h2; cases h2; rfl
            | panic => rw [SM.bind_of_panic h4] at h2; cases h2
        obtain ⟨rfl, h5⟩ := (decode_server _ _ _ _).1 h3
        obtain ⟨t, e⟩ := errPacket_ff h5
        cases e
      · split at h2
        · cases h2
        · split at h2
          · rw [liftP_server] at h2
            obtain ⟨a, h3, h4⟩ := h2
            cases h4
            refine ⟨_, h1, ?_⟩
            rw [← errForm_iff]
            rw [Took.caps h1] at h3
            exact h3
          · exact absurd h2 (Local.headRest _ _ _ _)
  · rintro ⟨p, h1, h2⟩
    refine ⟨p, c', h1, ?_⟩
    rw [← errForm_iff] at h2
    obtain ⟨t, rfl⟩ := errPacket_ff h2
    rw [SM.get_bind_apply]
    dsimp only
    rw [if_neg (by decide), if_neg (by decide), if_pos rfl, liftP_server]
    refine ⟨_, ?_, rfl⟩
    rw [Took.caps h1]
    exact h2

/-- and it panics exactly if it is a request for a local file or announces too many columns. -/
theorem C76_head_panic (c c' : Conn) : RSet.read c = (.panic, c') ↔ Spec.HeadPanics c c' := by
  rw [read_eq, packet_panic]
  constructor
  · rintro ⟨p, c1, h1, h2⟩
    rw [SM.get_bind_apply] at h2
    cases p with
    | nil =>
      obtain ⟨⟨n, l, rest, -, h3, h4⟩, -⟩ := (headRest_panic _ _ _).1 h2
      have := intForm_ne_nil h3
      simp only [List.nil_eq, List.append_eq_nil_iff] at h4
      exact absurd h4.1 this
    | cons b p =>
      dsimp only at h2
      split at h2
      · rename_i hb
        exfalso
        have hs : SM.Safe (decodeResponse (b :: p)) c1 := by
          unfold decodeResponse
          refine SM.safe_bind (by intro h; cases h) fun _ c2 _ => ?_
          dsimp only
          rw [if_pos hb]
          exact SM.safe_bind (by intro e; exact mapErr_not_panic (C53_packets _ _).1 e) fun _ _ _ =>
            (by intro h; cases h)
        refine SM.safe_bind hs (fun r c2 _ => SM.safe_bind (m := okOrServerError r)
          (f := fun ok => pure ({ columns := [], okPacket := some ok } : RSet)) ?_ fun _ _ _ => ?_) (congrArg Prod.fst h2)
        · cases r <;> (intro h; cases h)
        · intro h
          cases h
      · rename_i hb0
        split at h2
        · rename_i hb
          subst hb
          cases h2
          exact Or.inl ⟨p, h1⟩
        · rename_i hb1
          split at h2
          · exfalso
            exact SM.safe_bind (m := liftP (runP (ErrPacket.deserialize c1.data.capabilities) (b :: p)))
              (f := fun e => (SM.fail (.server e) : M RSet))
              (by intro e; exact mapErr_not_panic (C53_packets _ _).2.2.1 e)
              (fun _ _ _ => (by intro h; cases h)) (congrArg Prod.fst h2)
          · rename_i hb2
            obtain ⟨⟨n, l, rest, h3, h4, h5⟩, rfl⟩ := (headRest_panic _ _ _).1 h2
            refine Or.inr ⟨n, b :: p, c1, h3, ⟨l, rest, h4, h5, ?_, ?_, ?_⟩, h1, rfl⟩
            all_goals
              intro e
              injection e with e
              contradiction
  · rintro (⟨t, h1⟩ | ⟨n, p, c1, h1, ⟨l, rest, h2, h3, h4, h5, h6⟩, h7, rfl⟩)
    · exact ⟨_, c', h1, rfl⟩
    · refine ⟨p, c1, h7, ?_⟩
      have hr := (headRest_panic p c1 _).2 ⟨⟨n, l, rest, h1, h2, h3⟩, rfl⟩
      rw [SM.get_bind_apply]
      cases p with
      | nil => exact hr
      | cons b p =>
        dsimp only
        rw [if_neg (fun e => h4 (by rw [e]; rfl)), if_neg (fun e => h5 (by rw [e]; rfl)),
          if_neg (fun e => h6 (by rw [e]; rfl))]
        exact hr

/-! ### Rows -/

theorem isLast_iff (caps : UInt32) (p : Bytes) :
    (isLast caps p = .ok true ↔ Spec.IsEnd caps p) ∧ (isLast caps p = .ok false ↔ p ≠ [] ∧ ¬ Spec.IsEnd caps p) ∧
    (isLast caps p = .panic ↔ p = []) := by
  cases p with
  | nil =>
    refine ⟨⟨(fun h => by cases h), (fun h => by cases h.1)⟩, ⟨(fun h => by cases h), (fun h => absurd rfl h.1)⟩,
      ⟨fun _ => rfl, fun _ => rfl⟩⟩
  | cons b p =>
    have hb : ∀ n : Nat, (b == 0xFE && decide ((b :: p).length < n)) = true ↔
        (b :: p).head? = some 0xFE ∧ (b :: p).length < n := by
      intro n
      rw [Bool.and_eq_true, beq_iff_eq, decide_eq_true_iff, List.head?_cons, Option.some_inj]
    have hlast : ∃ v : Bool, isLast caps (b :: p) = .ok v ∧ (v = true ↔ Spec.IsEnd caps (b :: p)) := by
      unfold isLast Spec.IsEnd
      rw [hasFlag32_eq caps Cap.DEPRECATE_EOF 24 (by decide)]
      change ∃ v : Bool, _ ∧ (v = true ↔ _ ∧ _ < if caps.toNat.testBit 24 = true then _ else _)
      dsimp only
      split
      · exact ⟨_, rfl, hb _⟩
      · exact ⟨_, rfl, hb _⟩
    obtain ⟨v, h1, h2⟩ := hlast
    rw [h1, ← h2]
    cases v <;> simp

theorem eatTo {α : Type} (k : Nat) (f : Nat → α) (r : Bytes) :
    (P.checkedEatNat k >>= fun a => (pure (f a) : P α)) r =
      if k ≤ r.length then (.ok (f (leNat (r.take k))), r.drop k) else (.err .eof, r) := by
  by_cases h : k ≤ r.length
  · have h1 : P.checkedEat k r = (.ok (r.take k), r.drop k) := by
      unfold P.checkedEat P.eat
      rw [if_pos h, if_pos h]
    have h2 : P.checkedEatNat k r = (.ok (leNat (r.take k)), r.drop k) := SM.bind_eq_ok.2 ⟨_, _, h1, rfl⟩
    rw [if_pos h, SM.bind_of_ok h2]
    rfl
  · have h1 : P.checkedEat k r = (.err .eof, r) := by
      unfold P.checkedEat
      rw [if_neg h]
    have h2 : P.checkedEatNat k r = (.err .eof, r) := SM.bind_of_err h1
    rw [if_neg h, SM.bind_of_err h2]

theorem eatMore {α β : Type} (k : Nat) (m : P α) (f : Nat → α) (g : α → β)
    (hm : m = (P.checkedEatNat k >>= fun a => (pure (f a) : P α))) (r : Bytes) :
    (m >>= fun a => (pure (g a) : P β)) r =
      if k ≤ r.length then (.ok (g (f (leNat (r.take k)))), r.drop k) else (.err .eof, r) := by
  have h := eatTo k f r
  rw [← hm] at h
  by_cases hk : k ≤ r.length
  · rw [if_pos hk] at h ⊢
    rw [SM.bind_of_ok h]
    rfl
  · rw [if_neg hk] at h ⊢
    rw [SM.bind_of_err h]

theorem afterInt_spec (s : Bytes) : SM.ignore P.checkedEatLenencInt s = (.ok (), Spec.afterInt s) := by
  cases s with
  | nil => rfl
  | cons x r =>
    have hx : P.checkedEatU8 (x :: r) = (.ok x, r) :=
      (Decodes.checkedEatU8 _ _ _).2 ⟨[x], rfl, rfl⟩
    suffices h : ∃ o, P.checkedEatLenencInt (x :: r) = (o, Spec.afterInt (x :: r)) ∧ o ≠ .panic by
      obtain ⟨o, h1, h2⟩ := h
      unfold SM.ignore
      rw [h1]
      cases o with
      | ok a => rfl
      | err e => rfl
      | panic => exact absurd rfl h2
    unfold P.checkedEatLenencInt
    rw [SM.bind_of_ok hx]
    unfold Spec.afterInt
    have fin : ∀ k, ∀ v : UInt64, ∃ o : Out ProtocolError UInt64, (if k ≤ r.length then (.ok v, r.drop k) else (.err .eof, r)) =
        (o, if k ≤ r.length then r.drop k else r) ∧ o ≠ .panic := by
      intro k v
      by_cases hk : k ≤ r.length
      · rw [if_pos hk, if_pos hk]
        exact ⟨_, rfl, (by intro h; cases h)⟩
      · rw [if_neg hk, if_neg hk]
        exact ⟨_, rfl, (by intro h; cases h)⟩
    dsimp only
    by_cases h0 : x.toNat ≤ 0xfa
    · have n1 : x ≠ 0xFC := by rintro rfl; exact absurd h0 (by decide)
      have n2 : x ≠ 0xFD := by rintro rfl; exact absurd h0 (by decide)
      have n3 : x ≠ 0xFE := by rintro rfl; exact absurd h0 (by decide)
      rw [if_pos h0, if_neg n1, if_neg n2, if_neg n3, if_pos (Nat.zero_le _)]
      exact ⟨_, rfl, (by intro h; cases h)⟩
    · rw [if_neg h0]
      by_cases h1 : x = 0xFC
      · rw [if_pos h1, if_pos h1, eatMore 2 P.checkedEatU16 _ _ rfl]
        exact fin 2 _
      · rw [if_neg h1, if_neg h1]
        by_cases h2 : x = 0xFD
        · rw [if_pos h2, if_pos h2, eatMore 3 P.checkedEatU24 _ _ rfl]
          exact fin 3 _
        · rw [if_neg h2, if_neg h2]
          by_cases h3 : x = 0xFE
          · rw [if_pos h3, if_pos h3]
            unfold P.checkedEatU64
            rw [eatTo 8]
            exact fin 8 _
          · rw [if_neg h3, if_neg h3, if_pos (Nat.zero_le _)]
            exact ⟨_, rfl, (by intro h; cases h)⟩

/-- **C76**, the last packet of the rows: what it has to be and what is made of it. -/
theorem C76_end (caps : UInt32) (p : Bytes) (status warnings : UInt16) (message : Option Str) :
    (∃ ok, runP (OkPacket.readEof caps) p = .ok ok ∧ ok.affectedRows = 0 ∧ ok.lastInsertId = 0 ∧
        ok.status = status ∧ ok.warnings = warnings ∧ ok.message = message) ↔
      Spec.EndForm p status warnings message := by
  have hrun : runP (OkPacket.readEof caps) p = runP (OkPacket.readTail caps 0 0) (Spec.afterInt (Spec.afterInt p)) := by
    unfold OkPacket.readEof runP
    rw [SM.bind_of_ok (afterInt_spec _), SM.bind_of_ok (afterInt_spec _)]
  rw [hrun]
  unfold Spec.EndForm
  generalize Spec.afterInt (Spec.afterInt p) = q
  have hr : Ends (OkPacket.readTail caps 0 0) fun y bs => ∃ warnings s rest,
      bs = Spec.le 2 (UInt16.toNat s) ++ Spec.le 2 (UInt16.toNat warnings) ++ rest ∧
      runP (OkPacket.readTexts caps 0 0 (statusTruncate s) warnings) rest = .ok y := by
    unfold OkPacket.readTail
    refine (Decodes.bindEnds Decodes.checkedEatU16 fun st => Decodes.bindEnds Decodes.checkedEatU16 fun w =>
       (fun s x => Iff.rfl : Ends (OkPacket.readTexts caps 0 0 (statusTruncate st) w) _)).of_iff fun y bs => ?_
    constructor
    · rintro ⟨s, _, _, rfl, ⟨w, _, rest, rfl, hx, rfl⟩, rfl⟩
      exact ⟨w, s, rest, by simp, hx⟩
    · rintro ⟨w, s, rest, rfl, hx⟩
      exact ⟨s, _, _, rfl, ⟨w, _, rest, rfl, hx, rfl⟩, by simp⟩
  constructor
  · rintro ⟨ok, h, _, _, rfl, rfl, rfl⟩
    obtain ⟨w, s, rest, rfl, hx⟩ := (hr _ _).1 h
    obtain ⟨ok', h', _, _, e1, rfl, hm⟩ := readTexts_total caps 0 0 (statusTruncate s) w rest
    rw [hx] at h'
    cases h'
    exact ⟨s, rest, e1, rfl, hm⟩
  · rintro ⟨s, rest, rfl, rfl, hm⟩
    obtain ⟨ok, h, e1, e2, e3, e4, e5⟩ := readTexts_total caps 0 0 (statusTruncate s) warnings rest
    refine ⟨ok, (hr _ _).2 ⟨warnings, s, rest, rfl, h⟩, e1, e2, e3, e4, ?_⟩
    cases hmsg : ok.message with
    | some m => exact ((hm m).2 ((e5 m).1 hmsg)).symm
    | none =>
      cases hmsg2 : message with
      | none => rfl
      | some m =>
        have := (e5 m).2 ((hm m).1 hmsg2)
        rw [hmsg] at this
        cases this

theorem Took.shrinks {c c' : Conn} {p : Bytes} (h : Spec.Took c [p] c') : c'.rx.length < c.rx.length := by
  obtain ⟨rest, h, rfl⟩ := h
  have := framesAll_length c.seqId [p]
  rw [h]
  simp only [List.length_append, List.length_map]
  simp only [List.length_singleton] at this
  omega

/-- a packet that is taken for a row, and what the caller gets. -/
def RowPacket {R : Type} (rd : RowReader R) (cols : List Column) (caps : UInt32) (p : Bytes) (x : R) : Prop :=
  p ≠ [] ∧ ¬ Spec.IsEnd caps p ∧ ∃ vs, rd.row p cols = .ok vs ∧ rd.build cols vs = .ok x

/-- a packet at which reading the rows panics. -/
def BadPacket {R : Type} (rd : RowReader R) (cols : List Column) (caps : UInt32) (p : Bytes) : Prop :=
  p = [] ∨ (¬ Spec.IsEnd caps p ∧
    (rd.row p cols = .panic ∨ ∃ vs, rd.row p cols = .ok vs ∧ rd.build cols vs = .panic))

/-- one step behind the packet. -/
def nextRest {R : Type} (rd : RowReader R) (rs : RSet) (packet : Bytes) : M (RSet × Option R) := do
  let c ← SM.get
  let last ← SM.ofOut (isLast c.data.capabilities packet)
  if last then do
    let ok ← liftP (runP (OkPacket.readEof c.data.capabilities) packet)
    SM.modify fun c => { c with pendingResult := false }
    pure ({ rs with okPacket := some ok }, none)
  else do
    let row ← liftP (rd.row packet rs.columns)
    let r ← liftParse (rd.build rs.columns row)
    pure (rs, some r)

theorem next_eq {R : Type} (rd : RowReader R) (rs : RSet) (h : rs.okPacket = none) :
    rs.next rd = readPacket >>= nextRest rd rs := by
  unfold RSet.next
  rw [h, if_neg (by simp)]
  rfl

theorem nextRest_cases {R : Type} (rd : RowReader R) (rs : RSet) (p : Bytes) (c : Conn) :
    (p = [] ∧ nextRest rd rs p c = (.panic, c)) ∨
    (Spec.IsEnd c.data.capabilities p ∧
      ((∃ ok, runP (OkPacket.readEof c.data.capabilities) p = .ok ok ∧
          nextRest rd rs p c = (.ok ({ rs with okPacket := some ok }, none), { c with pendingResult := false })) ∨
       (∃ e, runP (OkPacket.readEof c.data.capabilities) p = .err e ∧ nextRest rd rs p c = (.err (.protocol e), c)))) ∨
    (p ≠ [] ∧ ¬ Spec.IsEnd c.data.capabilities p ∧
      ((∃ x, RowPacket rd rs.columns c.data.capabilities p x ∧ nextRest rd rs p c = (.ok (rs, some x), c)) ∨
       (BadPacket rd rs.columns c.data.capabilities p ∧ nextRest rd rs p c = (.panic, c)) ∨
       (∃ e, nextRest rd rs p c = (.err (.protocol e), c) ∧ ¬ BadPacket rd rs.columns c.data.capabilities p ∧
         ∀ x, ¬ RowPacket rd rs.columns c.data.capabilities p x))) := by
  unfold nextRest
  rw [SM.get_bind_apply]
  obtain ⟨l1, l2, l3⟩ := isLast_iff c.data.capabilities p
  cases hl : isLast c.data.capabilities p with
  | panic => exact Or.inl ⟨l3.1 hl, rfl⟩
  | err e =>
    exfalso
    unfold isLast at hl
    split at hl
    · cases hl
    · split at hl <;> cases hl
  | ok v =>
    cases v with
    | true =>
      right
      left
      refine ⟨l1.1 hl, ?_⟩
      rw [SM.ofOut_ok_bind_apply, if_pos rfl]
      cases he : runP (OkPacket.readEof c.data.capabilities) p with
      | ok ok => exact Or.inl ⟨ok, rfl, rfl⟩
      | err e => exact Or.inr ⟨e, rfl, rfl⟩
      | panic => exact absurd he (C53_packets _ _).2.1
    | false =>
      right
      right
      obtain ⟨hne, hend⟩ := l2.1 hl
      refine ⟨hne, hend, ?_⟩
      rw [SM.ofOut_ok_bind_apply, if_neg (by simp)]
      cases hr : rd.row p rs.columns with
      | panic => exact Or.inr (Or.inl ⟨Or.inr ⟨hend, Or.inl hr⟩, rfl⟩)
      | err e =>
        refine Or.inr (Or.inr ⟨e, rfl, ?_, ?_⟩)
        · rintro (h | ⟨_, h | ⟨_, h, _⟩⟩)
          · exact hne h
          · rw [hr] at h; cases h
          · rw [hr] at h; cases h
        · rintro x ⟨_, _, _, h, _⟩
          rw [hr] at h
          cases h
      | ok vs =>
        cases hb : rd.build rs.columns vs with
        | ok x =>
          refine Or.inl ⟨x, ⟨hne, hend, vs, hr, hb⟩, ?_⟩
          change (liftParse (rd.build rs.columns vs) >>= fun r => pure (rs, some r)) c = _
          rw [hb]
          rfl
        | err e =>
          refine Or.inr (Or.inr ⟨.parse e, ?_, ?_, ?_⟩)
          · change (liftParse (rd.build rs.columns vs) >>= fun r => pure (rs, some r)) c = _
            rw [hb]
            rfl
          · rintro (h | ⟨_, h | ⟨_, h, h2⟩⟩)
            · exact hne h
            · rw [hr] at h; cases h
            · rw [hr] at h; cases h; rw [hb] at h2; cases h2
          · rintro x ⟨_, _, _, h, h2⟩
            rw [hr] at h
            cases h
            rw [hb] at h2
            cases h2
        | panic =>
          refine Or.inr (Or.inl ⟨Or.inr ⟨hend, Or.inr ⟨vs, hr, hb⟩⟩, ?_⟩)
          change (liftParse (rd.build rs.columns vs) >>= fun r => pure (rs, some r)) c = _
          rw [hb]
          rfl

/-- **C76**, one step: a row is returned exactly if a row is next, … -/
theorem C76_next_row {R : Type} (rd : RowReader R) (rs : RSet) (c c' : Conn) (rs' : RSet) (x : R)
    (h : rs.okPacket = none) :
    rs.next rd c = (.ok (rs', some x), c') ↔
      rs' = rs ∧ ∃ p, Spec.Took c [p] c' ∧ RowPacket rd rs.columns c.data.capabilities p x := by
  rw [next_eq rd rs h, packet_ok]
  constructor
  · rintro ⟨p, c1, h1, h2⟩
    have hcaps := Took.caps h1
    rcases nextRest_cases rd rs p c1 with ⟨_, e⟩ | ⟨_, ⟨_, _, e⟩ | ⟨_, _, e⟩⟩ | ⟨_, _, ⟨y, hy, e⟩ | ⟨_, e⟩ | ⟨_, e, _⟩⟩
      <;> rw [e] at h2 <;> cases h2
    rw [hcaps] at hy
    exact ⟨rfl, p, h1, hy⟩
  · rintro ⟨rfl, p, h1, h2⟩
    refine ⟨p, c', h1, ?_⟩
    rw [← Took.caps h1] at h2
    rcases nextRest_cases rd rs' p c' with ⟨e', e⟩ | ⟨e', _⟩ | ⟨_, _, ⟨y, hy, e⟩ | ⟨hb, e⟩ | ⟨_, e, _, hn⟩⟩
    · exact absurd e' h2.1
    · exact absurd e' h2.2.1
    · obtain ⟨_, _, _, g1, g2⟩ := hy
      obtain ⟨_, _, _, g3, g4⟩ := h2
      rw [g1] at g3
      cases g3
      rw [g2] at g4
      cases g4
      exact e
    · obtain ⟨h0, _, _, g3, g4⟩ := h2
      rcases hb with hb | ⟨_, hb | ⟨_, hb, hb2⟩⟩
      · exact absurd hb h0
      · rw [g3] at hb; cases hb
      · rw [g3] at hb; cases hb; rw [g4] at hb2; cases hb2
    · exact absurd h2 (hn x)

/-- … the end exactly if the packet that ends the rows is next, … -/
theorem C76_next_end {R : Type} (rd : RowReader R) (rs : RSet) (c c' : Conn) (rs' : RSet)
    (h : rs.okPacket = none) :
    rs.next rd c = (.ok (rs', none), c') ↔
      ∃ p c1 ok, Spec.Took c [p] c1 ∧ Spec.IsEnd c.data.capabilities p ∧
        runP (OkPacket.readEof c.data.capabilities) p = .ok ok ∧
        rs' = { rs with okPacket := some ok } ∧ c' = { c1 with pendingResult := false } := by
  rw [next_eq rd rs h, packet_ok]
  constructor
  · rintro ⟨p, c1, h1, h2⟩
    have hcaps := Took.caps h1
    rcases nextRest_cases rd rs p c1 with ⟨_, e⟩ | ⟨he, ⟨ok, hok, e⟩ | ⟨_, _, e⟩⟩ | ⟨_, _, ⟨y, hy, e⟩ | ⟨_, e⟩ | ⟨_, e, _⟩⟩
      <;> rw [e] at h2 <;> cases h2
    rw [hcaps] at he hok
    exact ⟨p, c1, ok, h1, he, hok, rfl, rfl⟩
  · rintro ⟨p, c1, ok, h1, he, hok, rfl, rfl⟩
    refine ⟨p, c1, h1, ?_⟩
    have hcaps := Took.caps h1
    rw [← hcaps] at he hok
    rcases nextRest_cases rd rs p c1 with ⟨e', e⟩ | ⟨_, ⟨ok', hok', e⟩ | ⟨_, hok', e⟩⟩ | ⟨_, e', _⟩
    · subst e'
      cases he.1
    · rw [hok] at hok'
      cases hok'
      exact e
    · rw [hok] at hok'
      cases hok'
    · exact absurd he e'

/-- … and it panics exactly at an empty packet or a row that cannot be decoded without a panic. -/
theorem C76_next_panic {R : Type} (rd : RowReader R) (rs : RSet) (c c' : Conn) (h : rs.okPacket = none) :
    rs.next rd c = (.panic, c') ↔
      ∃ p, Spec.Took c [p] c' ∧ BadPacket rd rs.columns c.data.capabilities p := by
  rw [next_eq rd rs h, packet_panic]
  constructor
  · rintro ⟨p, c1, h1, h2⟩
    have hcaps := Took.caps h1
    rcases nextRest_cases rd rs p c1 with ⟨e0, e⟩ | ⟨he, ⟨ok, hok, e⟩ | ⟨_, _, e⟩⟩ | ⟨_, _, ⟨y, hy, e⟩ | ⟨hb, e⟩ | ⟨_, e, _⟩⟩
      <;> rw [e] at h2 <;> cases h2
    · exact ⟨p, h1, Or.inl e0⟩
    · rw [hcaps] at hb
      exact ⟨p, h1, hb⟩
  · rintro ⟨p, h1, h2⟩
    refine ⟨p, c', h1, ?_⟩
    rw [← Took.caps h1] at h2
    rcases nextRest_cases rd rs p c' with ⟨e', e⟩ | ⟨he, _⟩ | ⟨h0, _, ⟨y, hy, e⟩ | ⟨_, e⟩ | ⟨_, e, hn, _⟩⟩
    · exact e
    · exfalso
      rcases h2 with rfl | ⟨h2, _⟩
      · cases he.1
      · exact h2 he
    · exfalso
      obtain ⟨_, _, _, g3, g4⟩ := hy
      rcases h2 with hb | ⟨_, hb | ⟨_, hb, hb2⟩⟩
      · exact absurd hb h0
      · rw [g3] at hb; cases hb
      · rw [g3] at hb; cases hb; rw [g4] at hb2; cases hb2
    · exact e
    · exact absurd h2 hn

theorem collectLoop_ok {R : Type} (rd : RowReader R) (fuel : Nat) (rs : RSet) (c c' : Conn) (rs' : RSet) (xs : List R)
    (h : rs.okPacket = none) (hf : c.rx.length < fuel) :
    RSet.collectLoop rd fuel rs c = (.ok (rs', xs), c') ↔
      ∃ rows last c1 ok, Spec.Took c (rows ++ [last]) c1 ∧
        List.Forall₂ (RowPacket rd rs.columns c.data.capabilities) rows xs ∧
        Spec.IsEnd c.data.capabilities last ∧ runP (OkPacket.readEof c.data.capabilities) last = .ok ok ∧
        rs' = { rs with okPacket := some ok } ∧ c' = { c1 with pendingResult := false } := by
  induction fuel generalizing c xs with
  | zero => omega
  | succ fuel ih =>
    unfold RSet.collectLoop
    rw [SM.bind_eq_ok]
    constructor
    · rintro ⟨⟨rs1, r?⟩, c1, h1, h2⟩
      cases r? with
      | none =>
        cases h2
        obtain ⟨p, c2, ok, h3, h4, h5, h6, h7⟩ := (C76_next_end rd rs c c' rs' h).1 h1
        exact ⟨[], p, c2, ok, h3, .nil, h4, h5, h6, h7⟩
      | some r =>
        obtain ⟨rfl, p, h3, h4⟩ := (C76_next_row rd rs c c1 rs1 r h).1 h1
        obtain ⟨⟨rs2, l⟩, c2, h5, h6⟩ := SM.bind_eq_ok.1 h2
        cases h6
        obtain ⟨rows, last, c3, ok, g1, g2, g3, g4, g5, g6⟩ :=
          (ih c1 _ (by have := Took.shrinks h3; omega)).1 h5
        rw [Took.caps h3] at g2 g3 g4
        exact ⟨p :: rows, last, c3, ok, (Took.cons _ _ _ _).2 ⟨c1, h3, g1⟩, .cons h4 g2, g3, g4, g5, g6⟩
    · rintro ⟨rows, last, c1, ok, g1, g2, g3, g4, g5, g6⟩
      cases g2 with
      | nil => exact ⟨(rs', none), c', (C76_next_end rd rs c c' rs' h).2 ⟨last, c1, ok, g1, g3, g4, g5, g6⟩, rfl⟩
      | cons h4 g2 =>
        obtain ⟨c2, h3, g1⟩ := (Took.cons _ _ _ _).1 g1
        refine ⟨(rs, some _), c2, (C76_next_row rd rs c c2 rs _ h).2 ⟨rfl, _, h3, h4⟩, ?_⟩
        rw [← Took.caps h3] at g2 g3 g4
        dsimp only
        rw [SM.bind_of_ok ((ih c2 _ (by have := Took.shrinks h3; omega)).2 ⟨_, last, c1, ok, g1, g2, g3, g4, g5, g6⟩)]
        rfl

/-- **C76**, all rows: they are returned exactly if rows follow one another and then the packet that ends them. -/
theorem C76_collect {R : Type} (rd : RowReader R) (rs : RSet) (c c' : Conn) (rs' : RSet) (xs : List R)
    (h : rs.okPacket = none) :
    rs.collect rd c = (.ok (rs', xs), c') ↔
      ∃ rows last c1 ok, Spec.Took c (rows ++ [last]) c1 ∧
        List.Forall₂ (RowPacket rd rs.columns c.data.capabilities) rows xs ∧
        Spec.IsEnd c.data.capabilities last ∧ runP (OkPacket.readEof c.data.capabilities) last = .ok ok ∧
        rs' = { rs with okPacket := some ok } ∧ c' = { c1 with pendingResult := false } :=
  collectLoop_ok rd _ rs c c' rs' xs h (by omega)

/-- **C76**, all rows: it panics exactly if some rows are followed by a packet that makes it panic. -/
theorem C76_collect_panic {R : Type} (rd : RowReader R) (rs : RSet) (c c' : Conn) (h : rs.okPacket = none) :
    rs.collect rd c = (.panic, c') ↔
      ∃ rows xs bad, Spec.Took c (rows ++ [bad]) c' ∧
        List.Forall₂ (RowPacket rd rs.columns c.data.capabilities) rows xs ∧
        BadPacket rd rs.columns c.data.capabilities bad := by
  have key : ∀ fuel c, c.rx.length < fuel → (RSet.collectLoop rd fuel rs c = (.panic, c') ↔
      ∃ rows xs bad, Spec.Took c (rows ++ [bad]) c' ∧
        List.Forall₂ (RowPacket rd rs.columns c.data.capabilities) rows xs ∧
        BadPacket rd rs.columns c.data.capabilities bad) := by
    intro fuel
    induction fuel with
    | zero => intro c hf; omega
    | succ fuel ih =>
      intro c hf
      unfold RSet.collectLoop
      constructor
      · intro h2
        cases h1 : rs.next rd c with
        | mk o c1 =>
          cases o with
          | err e => rw [SM.bind_of_err h1] at h2; cases h2
          | panic =>
            rw [SM.bind_of_panic h1] at h2
            cases h2
            obtain ⟨p, h3, h4⟩ := (C76_next_panic rd rs c _ h).1 h1
            exact ⟨[], [], p, h3, .nil, h4⟩
          | ok a =>
            obtain ⟨rs1, r?⟩ := a
            rw [SM.bind_of_ok h1] at h2
            cases r? with
            | none => cases h2
            | some r =>
              obtain ⟨rfl, p, h3, h4⟩ := (C76_next_row rd rs c c1 rs1 r h).1 h1
              dsimp only at h2
              have h5 : RSet.collectLoop rd fuel rs1 c1 = (.panic, c') := by
                cases h6 : RSet.collectLoop rd fuel rs1 c1 with
                | mk o c2 =>
                  cases o with
                  | ok a => rw [SM.bind_of_ok h6] at h2; cases h2
                  | err e => rw [SM.bind_of_err h6] at h2; cases h2
                  | panic => rw [SM.bind_of_panic h6] at h2; cases h2; rfl
              obtain ⟨rows, xs, bad, g1, g2, g3⟩ := (ih c1 (by have := Took.shrinks h3; omega)).1 h5
              rw [Took.caps h3] at g2 g3
              exact ⟨p :: rows, r :: xs, bad, (Took.cons _ _ _ _).2 ⟨c1, h3, g1⟩, .cons h4 g2, g3⟩
      · rintro ⟨rows, xs, bad, g1, g2, g3⟩
        cases g2 with
        | nil => rw [SM.bind_of_panic ((C76_next_panic rd rs c c' h).2 ⟨bad, g1, g3⟩)]
        | cons h4 g2 =>
          obtain ⟨c2, h3, g1⟩ := (Took.cons _ _ _ _).1 g1
          rw [SM.bind_of_ok ((C76_next_row rd rs c c2 rs _ h).2 ⟨rfl, _, h3, h4⟩)]
          rw [← Took.caps h3] at g2 g3
          dsimp only
          rw [SM.bind_of_panic ((ih c2 (by have := Took.shrinks h3; omega)).2 ⟨_, _, bad, g1, g2, g3⟩)]
  exact key _ c (by omega)

/-! ### Whole queries -/

theorem textCells_length {fp : FloatParse} {ts : List (Nat × Bool)} {vs : List Value} {b : Bytes}
    (h : Spec.TextCells fp ts vs b) : vs.length = ts.length := by
  induction h with
  | nil => rfl
  | null _ ih => simp [ih]
  | cell _ _ _ _ ih => simp [ih]

theorem binCells_length {bm : Bytes} {i : Nat} {ts : List (Nat × Bool)} {vs : List Value} {b : Bytes}
    (h : Spec.BinCells bm i ts vs b) : vs.length = ts.length := by
  induction h with
  | nil => rfl
  | null _ _ ih => simp [ih]
  | cell _ _ _ ih => simp [ih]

theorem rowPacket_text (fp : FloatParse) (cols : List Column) (caps : UInt32) (p : Bytes) (x : List Value) :
    RowPacket (textReader fp mkPlain) cols caps p x ↔ Spec.TextRowForm fp caps (cols.map Column.wireType) p x := by
  unfold RowPacket Spec.TextRowForm
  refine and_congr Iff.rfl (and_congr Iff.rfl ?_)
  change (∃ vs, readTextRow fp p cols = .ok vs ∧ mkPlain cols vs = .ok x) ↔ _
  simp only [C74_row]
  constructor
  · rintro ⟨vs, ⟨b, rest, h1, h2⟩, h3⟩
    unfold mkPlain at h3
    split at h3
    · cases h3
    · cases h3
      exact ⟨b, rest, h1, h2⟩
  · rintro ⟨b, rest, h1, h2⟩
    refine ⟨x, ⟨b, rest, h1, h2⟩, ?_⟩
    have := textCells_length h1
    rw [List.length_map] at this
    unfold mkPlain
    rw [if_neg (by simp [this])]

theorem rowPacket_bin (cols : List Column) (caps : UInt32) (p : Bytes) (x : List Value) :
    RowPacket (binReader mkPlain) cols caps p x ↔ Spec.BinRowForm caps (cols.map Column.wireType) p x := by
  unfold RowPacket Spec.BinRowForm
  constructor
  · rintro ⟨_, h0, vs, h1, h3⟩
    obtain ⟨head, bm, s, h4, h5, h6⟩ := (C75_row _ _ _).1 h1
    change mkPlain cols vs = .ok x at h3
    unfold mkPlain at h3
    split at h3
    · cases h3
    · cases h3
      exact ⟨h0, head, bm, s, by rw [List.length_map]; exact h4, h5, h6⟩
  · rintro ⟨h0, head, bm, s, h4, h5, h6⟩
    rw [List.length_map] at h4
    refine ⟨by rw [h6]; simp, h0, x, (C75_row _ _ _).2 ⟨head, bm, s, h4, h5, h6⟩, ?_⟩
    have := binCells_length h5
    rw [List.length_map] at this
    change mkPlain cols x = _
    unfold mkPlain
    rw [if_neg (by simp [this])]

theorem whole {R : Type} (rd : RowReader R) (c c' : Conn) (hp : c.pendingResult = false) (cols : List Column)
    (xs : List R) (status warnings : UInt16) (message : Option Str) :
    (∃ c1 ok, RSet.read c = (.ok { columns := cols, okPacket := none }, c1) ∧
        RSet.collect rd { columns := cols, okPacket := none } c1 =
          (.ok ({ columns := cols, okPacket := some ok }, xs), c') ∧
        ok.affectedRows = 0 ∧ ok.lastInsertId = 0 ∧ ok.status = status ∧ ok.warnings = warnings ∧ ok.message = message) ↔
      ∃ head defs rows last, Spec.Took c (head :: defs ++ rows ++ [last]) c' ∧ Spec.CountForm defs.length head ∧
        List.Forall₂ (fun p col => ∃ d, Spec.ColumnForm p d ∧ col = Column.ofDef d) defs cols ∧
        List.Forall₂ (RowPacket rd cols c.data.capabilities) rows xs ∧
        Spec.IsEnd c.data.capabilities last ∧ Spec.EndForm last status warnings message := by
  constructor
  · rintro ⟨c1, ok, h1, h2, h3⟩
    obtain ⟨head, defs, c2, g1, g2, g3, rfl⟩ := (C76_head_rows _ _ _).1 h1
    obtain ⟨rows, last, c3, ok', k1, k2, k3, k4, k5, rfl⟩ := (C76_collect rd _ _ _ _ _ rfl).1 h2
    injection k5 with _ k5
    injection k5 with k5
    subst k5
    obtain ⟨c4, k6, rfl⟩ := (Took.pend _ _ _ _).1 k1
    have hcaps : c2.data = c.data := Took.caps g3
    simp only [hcaps] at k2 k3 k4
    refine ⟨head, defs, rows, last, ?_, g1, g2, k2, k3, (C76_end _ _ _ _ _).1 ⟨ok, k4, h3⟩⟩
    rw [List.append_assoc, Took.append]
    refine ⟨c2, g3, ?_⟩
    have e : c4 = { c4 with pendingResult := false } := by
      obtain ⟨r1, _, rfl⟩ := g3
      obtain ⟨r2, _, rfl⟩ := k6
      rw [hp]
    rw [show ({ ({ c4 with pendingResult := true } : Conn) with pendingResult := false } : Conn) = c4 from e.symm]
    exact k6
  · rintro ⟨head, defs, rows, last, h1, h2, h3, h4, h5, h6⟩
    rw [List.append_assoc, Took.append] at h1
    obtain ⟨c2, g1, g2⟩ := h1
    have hcaps : c2.data = c.data := Took.caps g1
    obtain ⟨ok, k1, k2⟩ := (C76_end c.data.capabilities _ _ _ _).2 h6
    refine ⟨_, ok, (C76_head_rows _ _ _).2 ⟨head, defs, c2, h2, h3, g1, rfl⟩,
      (C76_collect rd _ _ _ _ _ rfl).2 ⟨rows, last, { c' with pendingResult := true }, ok,
        (Took.pend _ _ _ _).2 ⟨c', g2, rfl⟩, ?_, ?_, ?_, rfl, ?_⟩, k2⟩
    · simp only [hcaps]
      exact h4
    · simp only [hcaps]
      exact h5
    · simp only [hcaps]
      exact k1
    · obtain ⟨r1, _, rfl⟩ := g1
      obtain ⟨r2, _, rfl⟩ := g2
      rw [hp]

/-- **C76**: a query in the text protocol. Columns and rows are returned to the caller exactly if the stream consists of
a number of columns, their definitions, rows for these columns and the packet that ends them; the caller gets what they
say. Nothing else arrives at the caller, whatever the server sends. -/
theorem C76_query (fp : FloatParse) (sql : Str) (c c' : Conn) (hp : c.pendingResult = false) (hw : c.wfaults = [])
    (cols : List Column) (xs : List (List Value)) (status warnings : UInt16) (message : Option Str) :
    (∃ c1 ok, query sql c = (.ok { columns := cols, okPacket := none }, c1) ∧
        RSet.collect (textReader fp mkPlain) { columns := cols, okPacket := none } c1 =
          (.ok ({ columns := cols, okPacket := some ok }, xs), c') ∧
        ok.affectedRows = 0 ∧ ok.lastInsertId = 0 ∧ ok.status = status ∧ ok.warnings = warnings ∧ ok.message = message) ↔
      ∃ head defs rows last,
        Spec.Took (Spec.sent c (0x03 :: utf8 sql)) (head :: defs ++ rows ++ [last]) c' ∧
        Spec.CountForm defs.length head ∧
        List.Forall₂ (fun p col => ∃ d, Spec.ColumnForm p d ∧ col = Column.ofDef d) defs cols ∧
        List.Forall₂ (Spec.TextRowForm fp c.data.capabilities (cols.map Column.wireType)) rows xs ∧
        Spec.IsEnd c.data.capabilities last ∧ Spec.EndForm last status warnings message := by
  have hq : query sql c = RSet.read (Spec.sent c (0x03 :: utf8 sql)) := by
    unfold query
    rw [SM.bind_of_ok (executeCommand_clean .query (utf8 sql) c hp hw)]
    rfl
  rw [hq, whole (textReader fp mkPlain) (Spec.sent c (0x03 :: utf8 sql)) c' hp cols xs status warnings message]
  have e : RowPacket (textReader fp mkPlain) cols (Spec.sent c (0x03 :: utf8 sql)).data.capabilities =
      Spec.TextRowForm fp c.data.capabilities (cols.map Column.wireType) := by
    funext p x
    exact propext (rowPacket_text fp cols _ p x)
  rw [e]
  rfl

/-- **C76**: the same for a prepared statement, in the binary protocol. -/
theorem C76_statement (p : Prepared) (values : List Value) (req : ExecRequest) (c c' : Conn)
    (hp : c.pendingResult = false) (hw : c.wfaults = []) (hn : values.length = p.params)
    (hreq : ExecRequest.new (ε := Error) p.id values = .ok req)
    (cols : List Column) (xs : List (List Value)) (status warnings : UInt16) (message : Option Str) :
    (∃ c1 ok, p.query values c = (.ok { columns := cols, okPacket := none }, c1) ∧
        RSet.collect (binReader mkPlain) { columns := cols, okPacket := none } c1 =
          (.ok ({ columns := cols, okPacket := some ok }, xs), c') ∧
        ok.affectedRows = 0 ∧ ok.lastInsertId = 0 ∧ ok.status = status ∧ ok.warnings = warnings ∧ ok.message = message) ↔
      ∃ head defs rows last,
        Spec.Took { c with tx := c.tx ++ Spec.commands (execCmds p.id values req),
                           seqId := UInt8.ofNat (Spec.frameCount req.serialize) }
          (head :: defs ++ rows ++ [last]) c' ∧
        Spec.CountForm defs.length head ∧
        List.Forall₂ (fun p col => ∃ d, Spec.ColumnForm p d ∧ col = Column.ofDef d) defs cols ∧
        List.Forall₂ (Spec.BinRowForm c.data.capabilities (cols.map Column.wireType)) rows xs ∧
        Spec.IsEnd c.data.capabilities last ∧ Spec.EndForm last status warnings message := by
  obtain ⟨req', h1, h2⟩ := sendExecute_clean p.id values c hp hw
  rw [hreq] at h1
  injection h1 with h1
  subst h1
  have hq : p.query values c = RSet.read { c with
      tx := c.tx ++ Spec.commands (execCmds p.id values req)
      seqId := UInt8.ofNat (Spec.frameCount req.serialize) } := by
    unfold Prepared.query
    rw [if_neg (by simp [hn]), SM.bind_of_ok h2]
  have e : RowPacket (binReader mkPlain) cols c.data.capabilities =
      Spec.BinRowForm c.data.capabilities (cols.map Column.wireType) := by
    funext p x
    exact propext (rowPacket_bin cols _ p x)
  rw [hq, ← e]
  exact whole (binReader mkPlain)
    { c with tx := c.tx ++ Spec.commands (execCmds p.id values req),
             seqId := UInt8.ofNat (Spec.frameCount req.serialize) } c' hp cols xs status warnings message

namespace C76ex

/-- the definition of a column `n` of type INT. -/
def coldef : Bytes :=
  [3, 100, 101, 102, 0, 1, 116, 1, 116, 1, 110, 1, 110, 12, 63, 0, 11, 0, 0, 0, 3, 0, 0, 0, 0, 0]

def fp : FloatParse := { f32 := fun _ => none, f64 := fun _ => none }

/-- the outcome of a query whose answer are these packets: columns, rows, status, what is left of the stream. -/
def ask (ps : List Bytes) : Option (Nat × List (List Value) × Option UInt16 × List Rx) :=
  match query "q".toList (exConn (Spec.framesAll 1 ps ++ [9])) with
  | (.ok rs, c) =>
    match rs.collect (textReader fp mkPlain) c with
    | (.ok (rs', rows), c') => some (rs.columns.length, rows, rs'.okPacket.map OkPacket.status, c'.rx)
    | _ => none
  | _ => none

end C76ex

open C76ex in
/-- a regular answer; one with the number of columns in a longer form, fillers in the definition and bytes behind
everything, which is taken for the same (the status, of which the first byte is read where the second is, differs);
one with a definition missing; one with a cell that is no number. -/
theorem C76_example_query :
    ask [[1], coldef, [1, 55], [0xFB], [0xFE, 0, 0, 0x22, 0, 0, 0]] = some (1, [[.int 7], [.null]], some 0x2200, [.byte 9]) ∧
    ask [[0xFC, 1, 0, 9, 9], coldef ++ [7], [0xFD, 1, 0, 0, 55, 1, 2], [0xFB, 3], [0xFE, 0, 0, 0x22, 0, 0, 0, 0, 0, 5, 0, 1, 0, 0]] =
      some (1, [[.int 7], [.null]], some 0x0100, [.byte 9]) ∧
    ask [[2], coldef, [1, 55], [0xFE, 0, 0, 0x22, 0, 0, 0]] = none ∧
    ask [[1], coldef, [1, 65], [0xFE, 0, 0, 0x22, 0, 0, 0]] = none := by
  refine ⟨?_, ?_, ?_, ?_⟩ <;> decide +kernel

end Verif

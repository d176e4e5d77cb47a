import Verif.Props.C76_Streams
import Verif.Spec.Sending

/-!
# C77: any stream, any state

C76 without its assumptions: rows of an earlier result may be left on the stream, and writing may fail. When a command is
sent, when statements succeed, what `one` and `finish` return, and where each of these panics — in terms of the packets
on the stream and the calls that write, for every server.
-/

namespace Verif

open Decodes (Ends)

/-! ### What is left of an earlier result -/

/-- behind one packet of the leftovers. -/
def leftRest (fuel : Nat) (packet : Bytes) : M OkPacket := do
  let c ← SM.get
  let last ← SM.ofOut (isLast c.data.capabilities packet)
  if last then do
    SM.modify fun c => { c with pendingResult := false }
    liftP (runP (OkPacket.readEof c.data.capabilities) packet)
  else cleanupLoop fuel

theorem cleanupLoop_eq (fuel : Nat) : cleanupLoop (fuel + 1) = readPacket >>= leftRest fuel := rfl

theorem leftRest_cases (fuel : Nat) (p : Bytes) (c : Conn) :
    (p = [] ∧ leftRest fuel p c = (.panic, c)) ∨
    (Spec.IsEnd c.data.capabilities p ∧
      ((∃ ok, runP (OkPacket.readEof c.data.capabilities) p = .ok ok ∧
          leftRest fuel p c = (.ok ok, { c with pendingResult := false })) ∨
       (∃ e, runP (OkPacket.readEof c.data.capabilities) p = .err e ∧
          leftRest fuel p c = (.err (.protocol e), { c with pendingResult := false })))) ∨
    (Spec.Passed c.data.capabilities p ∧ leftRest fuel p c = cleanupLoop fuel c) := by
  unfold leftRest
  rw [SM.get_bind_apply]
  obtain ⟨l1, l2, l3⟩ := isLast_iff c.data.capabilities p
  cases hl : isLast c.data.capabilities p with
  | panic => exact Or.inl ⟨l3.1 hl, rfl⟩
  | err e =>
    exfalso
    unfold isLast at hl
    split at hl
    · cases hl
    · split at hl <;> cases hl
  | ok v =>
    cases v with
    | true =>
      right
      left
      refine ⟨l1.1 hl, ?_⟩
      rw [SM.ofOut_ok_bind_apply, if_pos rfl, SM.modify_bind_apply]
      cases he : runP (OkPacket.readEof c.data.capabilities) p with
      | ok ok => exact Or.inl ⟨ok, rfl, rfl⟩
      | err e => exact Or.inr ⟨e, rfl, rfl⟩
      | panic => exact absurd he (C53_packets _ _).2.1
    | false =>
      right
      right
      refine ⟨l2.1 hl, ?_⟩
      rw [SM.ofOut_ok_bind_apply, if_neg (by simp)]

theorem cleanupLoop_ok (fuel : Nat) (c c' : Conn) (ok : OkPacket) (hf : c.rx.length < fuel) :
    cleanupLoop fuel c = (.ok ok, c') ↔
      ∃ left last c1, Spec.Took c (left ++ [last]) c1 ∧ (∀ p ∈ left, Spec.Passed c.data.capabilities p) ∧
        Spec.IsEnd c.data.capabilities last ∧ runP (OkPacket.readEof c.data.capabilities) last = .ok ok ∧
        c' = { c1 with pendingResult := false } := by
  induction fuel generalizing c with
  | zero => omega
  | succ fuel ih =>
    rw [cleanupLoop_eq, packet_ok]
    constructor
    · rintro ⟨p, c1, h1, h2⟩
      have hcaps := Took.caps h1
      rcases leftRest_cases fuel p c1 with ⟨_, e⟩ | ⟨he, ⟨ok', hok, e⟩ | ⟨_, _, e⟩⟩ | ⟨hp, e⟩
      · rw [e] at h2; cases h2
      · rw [e] at h2
        cases h2
        rw [hcaps] at he hok
        exact ⟨[], p, c1, h1, (fun _ h => by cases h), he, hok, rfl⟩
      · rw [e] at h2; cases h2
      · rw [e] at h2
        obtain ⟨left, last, c2, g1, g2, g3, g4, g5⟩ := (ih c1 (by have := Took.shrinks h1; omega)).1 h2
        rw [hcaps] at g2 g3 g4 hp
        refine ⟨p :: left, last, c2, (Took.cons _ _ _ _).2 ⟨c1, h1, g1⟩, ?_, g3, g4, g5⟩
        intro q hq
        rcases List.mem_cons.1 hq with rfl | hq
        · exact hp
        · exact g2 q hq
    · rintro ⟨left, last, c1, g1, g2, g3, g4, g5⟩
      cases left with
      | nil =>
        refine ⟨last, c1, g1, ?_⟩
        rw [← Took.caps g1] at g3 g4
        rcases leftRest_cases fuel last c1 with ⟨e', e⟩ | ⟨he, ⟨ok', hok, e⟩ | ⟨_, hok, e⟩⟩ | ⟨hp, e⟩
        · subst e'; cases g3.1
        · rw [g4] at hok
          cases hok
          rw [e, g5]
        · rw [g4] at hok
          cases hok
        · exact absurd g3 hp.2
      | cons p left =>
        obtain ⟨c2, h3, g1⟩ := (Took.cons _ _ _ _).1 g1
        refine ⟨p, c2, h3, ?_⟩
        have hp := g2 p (List.mem_cons_self ..)
        rw [← Took.caps h3] at g2 g3 g4 hp
        rcases leftRest_cases fuel p c2 with ⟨e', e⟩ | ⟨he, _⟩ | ⟨_, e⟩
        · exact absurd e' hp.1
        · exact absurd he hp.2
        · rw [e]
          exact (ih c2 (by have := Took.shrinks h3; omega)).2
            ⟨left, last, c1, g1, fun q hq => g2 q (List.mem_cons_of_mem _ hq), g3, g4, g5⟩

theorem cleanupLoop_panic (fuel : Nat) (c c' : Conn) (hf : c.rx.length < fuel) :
    cleanupLoop fuel c = (.panic, c') ↔
      ∃ left, Spec.Took c (left ++ [[]]) c' ∧ ∀ p ∈ left, Spec.Passed c.data.capabilities p := by
  induction fuel generalizing c with
  | zero => omega
  | succ fuel ih =>
    rw [cleanupLoop_eq, packet_panic]
    constructor
    · rintro ⟨p, c1, h1, h2⟩
      have hcaps := Took.caps h1
      rcases leftRest_cases fuel p c1 with ⟨e', e⟩ | ⟨he, ⟨ok', hok, e⟩ | ⟨_, _, e⟩⟩ | ⟨hp, e⟩
      · rw [e] at h2
        cases h2
        subst e'
        exact ⟨[], h1, fun _ h => by cases h⟩
      · rw [e] at h2; cases h2
      · rw [e] at h2; cases h2
      · rw [e] at h2
        obtain ⟨left, g1, g2⟩ := (ih c1 (by have := Took.shrinks h1; omega)).1 h2
        rw [hcaps] at g2 hp
        refine ⟨p :: left, (Took.cons _ _ _ _).2 ⟨c1, h1, g1⟩, ?_⟩
        intro q hq
        rcases List.mem_cons.1 hq with rfl | hq
        · exact hp
        · exact g2 q hq
    · rintro ⟨left, g1, g2⟩
      cases left with
      | nil =>
        refine ⟨[], c', g1, ?_⟩
        rcases leftRest_cases fuel [] c' with ⟨_, e⟩ | ⟨he, _⟩ | ⟨hp, e⟩
        · exact e
        · cases he.1
        · exact absurd rfl hp.1
      | cons p left =>
        obtain ⟨c2, h3, g1⟩ := (Took.cons _ _ _ _).1 g1
        refine ⟨p, c2, h3, ?_⟩
        have hp := g2 p (List.mem_cons_self ..)
        rw [← Took.caps h3] at g2 hp
        rcases leftRest_cases fuel p c2 with ⟨e', e⟩ | ⟨he, _⟩ | ⟨_, e⟩
        · exact absurd e' hp.1
        · exact absurd he hp.2
        · rw [e]
          exact (ih c2 (by have := Took.shrinks h3; omega)).2
            ⟨left, g1, fun q hq => g2 q (List.mem_cons_of_mem _ hq)⟩

theorem cleanup_pend (c : Conn) (h : c.pendingResult = true) :
    cleanup c = (cleanupLoop (c.rx.length + 1) >>= fun ok => (pure (some ok) : M (Option OkPacket))) c := by
  unfold cleanup
  rw [if_pos h]

theorem endForm_iff (caps : UInt32) (p : Bytes) :
    (∃ ok, runP (OkPacket.readEof caps) p = .ok ok) ↔ ∃ status warnings message, Spec.EndForm p status warnings message := by
  have hrun : runP (OkPacket.readEof caps) p = runP (OkPacket.readTail caps 0 0) (Spec.afterInt (Spec.afterInt p)) := by
    unfold OkPacket.readEof runP
    rw [SM.bind_of_ok (afterInt_spec _), SM.bind_of_ok (afterInt_spec _)]
  constructor
  · rintro ⟨ok, h⟩
    have hr : Ends (OkPacket.readTail caps 0 0) fun y bs => ∃ warnings s rest,
        bs = Spec.le 2 (UInt16.toNat s) ++ Spec.le 2 (UInt16.toNat warnings) ++ rest ∧
        runP (OkPacket.readTexts caps 0 0 (statusTruncate s) warnings) rest = .ok y := by
      unfold OkPacket.readTail
      refine (Decodes.bindEnds Decodes.checkedEatU16 fun st => Decodes.bindEnds Decodes.checkedEatU16 fun w =>
         (fun s x => Iff.rfl : Ends (OkPacket.readTexts caps 0 0 (statusTruncate st) w) _)).of_iff fun y bs => ?_
      constructor
      · rintro ⟨s, _, _, rfl, ⟨w, _, rest, rfl, hx, rfl⟩, rfl⟩
        exact ⟨w, s, rest, by simp, hx⟩
      · rintro ⟨w, s, rest, rfl, hx⟩
        exact ⟨s, _, _, rfl, ⟨w, _, rest, rfl, hx, rfl⟩, by simp⟩
    have h' := h
    rw [hrun] at h'
    obtain ⟨w, s, rest, e, hx⟩ := (hr _ _).1 h'
    obtain ⟨ok', h'', a1, a2, _⟩ := readTexts_total caps 0 0 (statusTruncate s) w rest
    rw [hx] at h''
    cases h''
    exact ⟨_, _, _, (C76_end caps p _ _ _).1 ⟨ok, h, a1, a2, rfl, rfl, rfl⟩⟩
  · rintro ⟨s, w, m, h⟩
    obtain ⟨ok, h, _⟩ := (C76_end caps p s w m).2 h
    exact ⟨ok, h⟩

/-- **C77**, leftovers: they are out of the way exactly if the stream shows packets that are neither empty nor the end,
and then the end. -/
theorem C77_idle (c c0 : Conn) : (∃ r, cleanup c = (.ok r, c0)) ↔ Spec.Idle c c0 := by
  unfold Spec.Idle
  cases hp : c.pendingResult with
  | false =>
    rw [cleanup_clean c hp]
    constructor
    · rintro ⟨r, h⟩
      cases h
      exact Or.inl ⟨rfl, rfl⟩
    · rintro (⟨_, rfl⟩ | ⟨h, _⟩)
      · exact ⟨_, rfl⟩
      · cases h
  | true =>
    rw [cleanup_pend c hp]
    constructor
    · rintro ⟨r, h⟩
      obtain ⟨ok, c2, h1, h2⟩ := SM.bind_eq_ok.1 h
      cases h2
      obtain ⟨left, last, c1, g1, g2, g3, g4, g5⟩ := (cleanupLoop_ok _ c c0 ok (by omega)).1 h1
      exact Or.inr ⟨rfl, left, last, c1, g1, g2, g3, (endForm_iff _ _).1 ⟨ok, g4⟩, g5⟩
    · rintro (⟨h, _⟩ | ⟨_, left, last, c1, g1, g2, g3, g4, g5⟩)
      · cases h
      · obtain ⟨ok, hok⟩ := (endForm_iff c.data.capabilities last).2 g4
        exact ⟨some ok, SM.bind_eq_ok.2 ⟨ok, c0, (cleanupLoop_ok _ c c0 ok (by omega)).2
          ⟨left, last, c1, g1, g2, g3, hok, g5⟩, rfl⟩⟩

/-- **C77**, leftovers: it panics exactly at an empty packet among them. -/
theorem C77_idle_panic (c c' : Conn) :
    cleanup c = (.panic, c') ↔ c.pendingResult = true ∧
      ∃ left, Spec.Took c (left ++ [[]]) c' ∧ ∀ p ∈ left, Spec.Passed c.data.capabilities p := by
  cases hp : c.pendingResult with
  | false =>
    rw [cleanup_clean c hp]
    constructor
    · intro h
      cases h
    · rintro ⟨h, _⟩
      cases h
  | true =>
    rw [cleanup_pend c hp]
    rw [← cleanupLoop_panic (c.rx.length + 1) c c' (by omega)]
    cases h1 : cleanupLoop (c.rx.length + 1) c with
    | mk o c1 =>
      cases o with
      | ok a =>
        rw [SM.bind_of_ok h1]
        constructor
        · intro h
          cases h
        · intro h
          cases h.2
      | err a =>
        rw [SM.bind_of_err h1]
        constructor
        · intro h
          cases h
        · intro h
          cases h.2
      | panic =>
        rw [SM.bind_of_panic h1]
        constructor
        · intro h
          cases h
          exact ⟨rfl, rfl⟩
        · intro h
          cases h.2
          rfl

theorem Local.cleanup : Local Verif.cleanup := by
  have hl : ∀ fuel, Local (cleanupLoop fuel) := by
    intro fuel
    induction fuel with
    | zero => exact Local.crash
    | succ fuel ih =>
      rw [cleanupLoop_eq]
      refine Local.bind Local.readPacket fun p => ?_
      intro c c' e h
      rcases leftRest_cases fuel p c with ⟨_, e⟩ | ⟨he, ⟨ok', hok, e⟩ | ⟨_, _, e⟩⟩ | ⟨hp, e⟩
      · rw [e] at h; cases h
      · rw [e] at h; cases h
      · rw [e] at h; cases h
      · rw [e] at h
        exact ih _ _ _ h
  intro c c' e h
  cases hp : c.pendingResult with
  | false =>
    rw [cleanup_clean c hp] at h
    cases h
  | true =>
    rw [cleanup_pend c hp] at h
    exact Local.bind (hl _) (fun _ => Local.pure _) _ _ _ h

theorem Idle.pend {c c0 : Conn} (h : Spec.Idle c c0) : c0.pendingResult = false := by
  rcases h with ⟨h, rfl⟩ | ⟨_, _, _, _, _, _, _, _, rfl⟩
  · exact h
  · rfl

theorem Idle.data {c c0 : Conn} (h : Spec.Idle c c0) : c0.data = c.data := by
  rcases h with ⟨h, rfl⟩ | ⟨_, _, _, _, h, _, _, _, rfl⟩
  · rfl
  · have := Took.caps h
    exact this

/-! ### Sending -/

theorem writeRaw_iff (bs : Bytes) (c c' : Conn) :
    writeRaw bs c = (.ok (), c') ↔ Spec.Clear 1 c ∧
      c' = { c with tx := c.tx ++ bs, wfaults := c.wfaults.drop 1 } := by
  unfold writeRaw Spec.Clear
  cases hw : c.wfaults with
  | nil =>
    dsimp only
    constructor
    · intro h
      cases h
      exact ⟨(fun _ h => by cases h), by rw [List.drop_nil, ← hw]⟩
    · rintro ⟨_, rfl⟩
      rw [List.drop_nil, ← hw]
  | cons f fs =>
    cases f with
    | none =>
      dsimp only
      constructor
      · intro h
        cases h
        exact ⟨(fun f h => by simpa using h), rfl⟩
      · rintro ⟨_, rfl⟩
        rfl
    | some f =>
      dsimp only
      constructor
      · intro h
        cases h
      · rintro ⟨h, _⟩
        exact absurd (h (some f) (by simp)) (by simp)

theorem clear_add (n m : Nat) (c : Conn) :
    Spec.Clear (n + m) c ↔ Spec.Clear n c ∧ Spec.Clear m { c with wfaults := c.wfaults.drop n } := by
  unfold Spec.Clear
  rw [List.take_add]
  simp only [List.mem_append]
  constructor
  · intro h
    exact ⟨fun f hf => h f (Or.inl hf), fun f hf => h f (Or.inr hf)⟩
  · rintro ⟨h1, h2⟩ f (hf | hf)
    · exact h1 f hf
    · exact h2 f hf

theorem writesOf_long (p : Bytes) (h : MAX_PAYLOAD_LEN ≤ p.length) :
    Spec.writesOf p = 2 + Spec.writesOf (p.drop MAX_PAYLOAD_LEN) := by
  unfold Spec.writesOf Spec.frameCount
  rw [List.length_drop, show Spec.maxFrame = MAX_PAYLOAD_LEN from rfl, ← Nat.mod_eq_sub_mod h]
  have : p.length / MAX_PAYLOAD_LEN = (p.length - MAX_PAYLOAD_LEN) / MAX_PAYLOAD_LEN + 1 :=
    Nat.div_eq_sub_div (by unfold MAX_PAYLOAD_LEN; omega) h
  rw [this]
  generalize (p.length - MAX_PAYLOAD_LEN) / MAX_PAYLOAD_LEN = x
  split <;> omega

theorem writePacket_iff (bs : Bytes) (c c' : Conn) :
    writePacket bs c = (.ok (), c') ↔ Spec.Clear (Spec.writesOf bs) c ∧
      c' = { c with
        tx := c.tx ++ Spec.frames c.seqId bs
        wfaults := c.wfaults.drop (Spec.writesOf bs)
        seqId := c.seqId + UInt8.ofNat (Spec.frameCount bs) } := by
  induction hn : bs.length using Nat.strongRecOn generalizing bs c with
  | _ n ih =>
  by_cases h0 : bs = []
  · subst h0
    unfold writePacket
    rw [SM.bind_of_ok (writeChunks_nil c), if_pos (by simp), SM.get_bind_apply, header_bytes_zero, SM.bind_eq_ok]
    have hfr : Spec.frames c.seqId [] = leBytes 3 0 ++ [c.seqId] := by
      rw [frames_short _ _ (by simp [MAX_PAYLOAD_LEN])]; simp
    have hfc : Spec.frameCount [] = 1 := frameCount_short _ (by simp [MAX_PAYLOAD_LEN])
    have hwr : Spec.writesOf [] = 1 := rfl
    rw [hfr, hfc, hwr]
    constructor
    · rintro ⟨_, c1, h1, h2⟩
      obtain ⟨h3, rfl⟩ := (writeRaw_iff _ _ _).1 h1
      cases h2
      exact ⟨h3, rfl⟩
    · rintro ⟨h3, rfl⟩
      exact ⟨_, _, (writeRaw_iff _ _ _).2 ⟨h3, rfl⟩, rfl⟩
  · have hp : 0 < bs.length := List.length_pos_iff.mpr h0
    have hm : min bs.length MAX_PAYLOAD_LEN < 2 ^ 24 := by unfold MAX_PAYLOAD_LEN; omega
    -- the first frame and what follows
    have hstep : writePacket bs c = (.ok (), c') ↔ Spec.Clear 2 c ∧
        (writeChunks (bs.drop (min bs.length MAX_PAYLOAD_LEN)) >>= fun _ =>
          if bs.length % MAX_PAYLOAD_LEN = 0 then (do
            let c ← SM.get
            writeRaw (leBytes 4 (UInt32.ofNat c.seqId.toNat <<< 24).toNat)
            SM.modify fun c => { c with seqId := c.seqId + 1 } : M Unit)
          else pure ()) { c with
            tx := c.tx ++ (leBytes 3 (min bs.length MAX_PAYLOAD_LEN) ++ [c.seqId] ++ bs.take (min bs.length MAX_PAYLOAD_LEN))
            wfaults := c.wfaults.drop 2
            seqId := c.seqId + 1 } = (.ok (), c') := by
      unfold writePacket
      rw [writeChunks, dif_neg h0, SM.bind_assoc]
      rw [SM.get_bind_apply, header_bytes _ _ hm, SM.bind_assoc, SM.bind_eq_ok]
      rw [show (2 : Nat) = 1 + 1 from rfl, clear_add]
      constructor
      · rintro ⟨_, c1, h1, h2⟩
        obtain ⟨h3, rfl⟩ := (writeRaw_iff _ _ _).1 h1
        rw [SM.bind_assoc, SM.bind_eq_ok] at h2
        obtain ⟨_, c2, h4, h5⟩ := h2
        obtain ⟨h6, rfl⟩ := (writeRaw_iff _ _ _).1 h4
        refine ⟨⟨h3, h6⟩, ?_⟩
        rw [SM.bind_assoc, SM.modify_bind_apply] at h5
        rw [← h5]
        simp only [List.append_assoc, List.drop_drop]
      · rintro ⟨⟨h3, h6⟩, h5⟩
        refine ⟨_, _, (writeRaw_iff _ _ _).2 ⟨h3, rfl⟩, ?_⟩
        rw [SM.bind_assoc, SM.bind_eq_ok]
        refine ⟨_, _, (writeRaw_iff _ _ _).2 ⟨h6, rfl⟩, ?_⟩
        rw [SM.bind_assoc, SM.modify_bind_apply]
        rw [← h5]
        simp only [List.append_assoc, List.drop_drop]
    rw [hstep]
    by_cases hl : MAX_PAYLOAD_LEN ≤ bs.length
    · have hlt : (bs.drop MAX_PAYLOAD_LEN).length < n := by
        rw [List.length_drop, ← hn]; unfold MAX_PAYLOAD_LEN at *; omega
      have e : (bs.length % MAX_PAYLOAD_LEN = 0) = ((bs.drop MAX_PAYLOAD_LEN).length % MAX_PAYLOAD_LEN = 0) := by
        rw [List.length_drop, ← Nat.mod_eq_sub_mod hl]
      rw [Nat.min_eq_right hl]
      simp only [e]
      have := ih _ hlt (bs.drop MAX_PAYLOAD_LEN) { c with
            tx := c.tx ++ (leBytes 3 MAX_PAYLOAD_LEN ++ [c.seqId] ++ bs.take MAX_PAYLOAD_LEN)
            wfaults := c.wfaults.drop 2
            seqId := c.seqId + 1 } rfl
      unfold writePacket at this
      rw [this, writesOf_long _ hl, clear_add, frames_long _ _ hl, frameCount_long _ hl, ← and_assoc]
      simp only [List.append_assoc, seq_add_one_add, List.drop_drop]
      rfl
    · have hl' : bs.length < MAX_PAYLOAD_LEN := by omega
      have hw : Spec.writesOf bs = 2 := by
        unfold Spec.writesOf Spec.frameCount
        rw [show Spec.maxFrame = MAX_PAYLOAD_LEN from rfl, Nat.mod_eq_of_lt hl', if_neg (by omega), Nat.div_eq_of_lt hl']
      rw [Nat.min_eq_left (by omega), List.drop_length, List.take_length, SM.bind_of_ok (writeChunks_nil _),
        if_neg (by rw [Nat.mod_eq_of_lt hl']; omega), hw, frames_short _ _ hl', frameCount_short _ hl']
      refine and_congr Iff.rfl ?_
      constructor
      · intro h
        cases h
        rfl
      · rintro rfl
        rfl

theorem send_iff (bytes : Bytes) (c c' : Conn) :
    writeCommand bytes c = (.ok (), c') ↔ ∃ c0, Spec.Idle c c0 ∧ Spec.Wrote c0 bytes c' := by
  unfold writeCommand
  rw [SM.bind_eq_ok]
  constructor
  · rintro ⟨r, c0, h1, h2⟩
    rw [SM.modify_bind_apply, writePacket_iff] at h2
    obtain ⟨h3, rfl⟩ := h2
    exact ⟨c0, (C77_idle _ _).1 ⟨r, h1⟩, h3, by simp⟩
  · rintro ⟨c0, h1, h2, rfl⟩
    obtain ⟨r, h3⟩ := (C77_idle _ _).2 h1
    refine ⟨r, c0, h3, ?_⟩
    rw [SM.modify_bind_apply, writePacket_iff]
    exact ⟨h2, by simp⟩

/-- **C77**, sending: a command is sent exactly if the leftovers are out of the way and no call that writes it fails. -/
theorem C77_send (cmd : Command) (data : Bytes) (c c' : Conn) :
    executeCommand cmd data c = (.ok (), c') ↔
      ∃ c0, Spec.Idle c c0 ∧ Spec.Wrote c0 (cmd.toByte :: data) c' :=
  send_iff (cmd.toByte :: data) c c'

theorem Wrote.pend {c c' : Conn} {cmd : Bytes} (h : Spec.Wrote c cmd c') : c'.pendingResult = c.pendingResult := by
  obtain ⟨_, rfl⟩ := h
  rfl

theorem Wrote.data {c c' : Conn} {cmd : Bytes} (h : Spec.Wrote c cmd c') : c'.data = c.data := by
  obtain ⟨_, rfl⟩ := h
  rfl

theorem WroteAll.append (c c' : Conn) (xs ys : List Bytes) :
    Spec.WroteAll c (xs ++ ys) c' ↔ ∃ c1, Spec.WroteAll c xs c1 ∧ Spec.WroteAll c1 ys c' := by
  induction xs generalizing c with
  | nil =>
    constructor
    · intro h
      exact ⟨c, rfl, h⟩
    · rintro ⟨c1, h1, h2⟩
      cases h1
      exact h2
  | cons x xs ih =>
    constructor
    · rintro ⟨c1, h1, h2⟩
      obtain ⟨c2, h3, h4⟩ := (ih c1).1 h2
      exact ⟨c2, ⟨c1, h1, h3⟩, h4⟩
    · rintro ⟨c2, ⟨c1, h1, h3⟩, h4⟩
      exact ⟨c1, h1, (ih c1).2 ⟨c2, h3, h4⟩⟩

theorem WroteAll.pend {c c' : Conn} {cmds : List Bytes} (h : Spec.WroteAll c cmds c') : c'.pendingResult = c.pendingResult := by
  induction cmds generalizing c with
  | nil => cases h; rfl
  | cons x xs ih =>
    obtain ⟨c1, h1, h2⟩ := h
    rw [ih h2, Wrote.pend h1]

theorem WroteAll.data {c c' : Conn} {cmds : List Bytes} (h : Spec.WroteAll c cmds c') : c'.data = c.data := by
  induction cmds generalizing c with
  | nil => cases h; rfl
  | cons x xs ih =>
    obtain ⟨c1, h1, h2⟩ := h
    rw [ih h2, Wrote.data h1]

theorem Idle.refl {c : Conn} (h : c.pendingResult = false) (c0 : Conn) : Spec.Idle c c0 ↔ c0 = c := by
  constructor
  · rintro (⟨_, rfl⟩ | ⟨h', _⟩)
    · rfl
    · rw [h] at h'
      cases h'
  · rintro rfl
    exact Or.inl ⟨h, rfl⟩

theorem Idle.det {c c1 c2 : Conn} (h1 : Spec.Idle c c1) (h2 : Spec.Idle c c2) : c1 = c2 := by
  obtain ⟨r1, e1⟩ := (C77_idle _ _).2 h1
  obtain ⟨r2, e2⟩ := (C77_idle _ _).2 h2
  rw [e1] at e2
  cases e2
  rfl

/-- commands of the model, one after the other. -/
def writeCommands : List Bytes → M Unit
  | [] => pure ()
  | cmd :: cmds => writeCommand cmd >>= fun _ => writeCommands cmds

theorem writeCommands_append (xs ys : List Bytes) :
    writeCommands (xs ++ ys) = writeCommands xs >>= fun _ => writeCommands ys := by
  induction xs with
  | nil => rfl
  | cons x xs ih =>
    change (writeCommand x >>= fun _ => writeCommands (xs ++ ys)) = _
    rw [ih]
    change _ = (writeCommand x >>= fun _ => writeCommands xs) >>= _
    rw [SM.bind_assoc]

theorem writeCommands_clean (cmds : List Bytes) (c c' : Conn) (hp : c.pendingResult = false) :
    writeCommands cmds c = (.ok (), c') ↔ Spec.WroteAll c cmds c' := by
  induction cmds generalizing c with
  | nil =>
    constructor
    · intro h
      cases h
      rfl
    · intro h
      cases h
      rfl
  | cons x xs ih =>
    change (writeCommand x >>= fun _ => writeCommands xs) c = _ ↔ ∃ c1, _ ∧ _
    rw [SM.bind_eq_ok]
    constructor
    · rintro ⟨_, c1, h1, h2⟩
      obtain ⟨c0, h3, h4⟩ := (send_iff _ _ _).1 h1
      obtain rfl := (Idle.refl hp c0).1 h3
      exact ⟨c1, h4, (ih c1 (by rw [Wrote.pend h4, hp])).1 h2⟩
    · rintro ⟨c1, h4, h2⟩
      exact ⟨(), c1, (send_iff _ _ _).2 ⟨c, (Idle.refl hp c).2 rfl, h4⟩, (ih c1 (by rw [Wrote.pend h4, hp])).2 h2⟩

theorem writeCommands_iff (cmd : Bytes) (cmds : List Bytes) (c c' : Conn) :
    writeCommands (cmd :: cmds) c = (.ok (), c') ↔ ∃ c0, Spec.Idle c c0 ∧ Spec.WroteAll c0 (cmd :: cmds) c' := by
  change (writeCommand cmd >>= fun _ => writeCommands cmds) c = _ ↔ _
  rw [SM.bind_eq_ok]
  constructor
  · rintro ⟨_, c1, h1, h2⟩
    obtain ⟨c0, h3, h4⟩ := (send_iff _ _ _).1 h1
    exact ⟨c0, h3, c1, h4, (writeCommands_clean _ _ _ (by rw [Wrote.pend h4, Idle.pend h3])).1 h2⟩
  · rintro ⟨c0, h3, c1, h4, h2⟩
    exact ⟨(), c1, (send_iff _ _ _).2 ⟨c0, h3, h4⟩, (writeCommands_clean _ _ _ (by rw [Wrote.pend h4, Idle.pend h3])).2 h2⟩

theorem sendPieces_eq (id : UInt32) (i : Nat) (ps : List Bytes) :
    sendPieces id i ps = writeCommands (ps.map (longDataBytes id (UInt16.ofNat i))) := by
  induction ps with
  | nil => rfl
  | cons p ps ih =>
    change (writeCommand _ >>= fun _ => sendPieces id i ps) = _
    rw [ih]
    rfl

theorem sendLongData_eq (id : UInt32) (i : Nat) (vs : List Value) :
    sendLongData id i vs = writeCommands (longCmds id i vs) := by
  induction vs generalizing i with
  | nil => rfl
  | cons v vs ih =>
    change (sendPieces id i (longDataPieces v) >>= fun _ => sendLongData id (i + 1) vs) = _
    rw [ih, sendPieces_eq, ← writeCommands_append]
    rfl

theorem sendExecute_eq (id : UInt32) (vs : List Value) (req : ExecRequest)
    (h : ExecRequest.new (ε := Error) id vs = .ok req) :
    sendExecute id vs = writeCommands (execCmds id vs req) := by
  funext c
  unfold sendExecute execCmds
  rw [h, SM.ofOut_ok_bind_apply]
  have hone : ∀ x, writeCommands [x] = writeCommand x := by
    intro x
    funext c
    change (writeCommand x >>= fun _ => (pure () : M Unit)) c = _
    cases h1 : writeCommand x c with
    | mk o c1 =>
      cases o with
      | ok a => rw [SM.bind_of_ok h1]; rfl
      | err a => rw [SM.bind_of_err h1]
      | panic => rw [SM.bind_of_panic h1]
  cases hb : req.asLongData with
  | false => rw [if_neg (by simp), if_neg (by simp), List.nil_append, hone]
  | true => rw [if_pos rfl, if_pos rfl, writeCommands_append, hone, sendLongData_eq]

/-- **C77**, sending: a statement is sent exactly if the leftovers are out of the way and no call that writes its
commands fails. -/
theorem C77_send_statement (id : UInt32) (vs : List Value) (req : ExecRequest)
    (h : ExecRequest.new (ε := Error) id vs = .ok req) (c c' : Conn) :
    sendExecute id vs c = (.ok (), c') ↔ ∃ c0, Spec.Idle c c0 ∧ Spec.WroteAll c0 (execCmds id vs req) c' := by
  rw [sendExecute_eq id vs req h]
  obtain ⟨x, xs, e⟩ : ∃ x xs, execCmds id vs req = x :: xs := by
    cases he : execCmds id vs req with
    | nil =>
      unfold execCmds at he
      simp at he
    | cons x xs => exact ⟨x, xs, rfl⟩
  rw [e]
  exact writeCommands_iff x xs c c'

theorem Local.writeRaw (bs : Bytes) : Local (Verif.writeRaw bs) := by
  intro c c' e h
  unfold Verif.writeRaw at h
  split at h <;> cases h

theorem Local.writePacket (bs : Bytes) : Local (Verif.writePacket bs) := by
  have hc : ∀ n, ∀ bs : Bytes, bs.length < n → Local (writeChunks bs) := by
    intro n
    induction n with
    | zero => intro bs h; omega
    | succ n ih =>
      intro bs h
      rw [writeChunks]
      split
      · exact Local.pure _
      · rename_i h0
        have hp : 0 < bs.length := List.length_pos_iff.mpr h0
        refine Local.bind Local.get fun c => Local.bind (Local.writeRaw _) fun _ => Local.bind (Local.writeRaw _) fun _ =>
          Local.bind (Local.modify _) fun _ => ih _ ?_
        rw [List.length_drop]
        unfold MAX_PAYLOAD_LEN
        omega
  unfold Verif.writePacket
  refine Local.bind (hc _ bs (Nat.lt_succ_self _)) fun _ => ?_
  split
  · exact Local.bind Local.get fun _ => Local.bind (Local.writeRaw _) fun _ => Local.modify _
  · exact Local.pure _

theorem Local.writeCommand (bs : Bytes) : Local (Verif.writeCommand bs) :=
  Local.bind Local.cleanup fun _ => Local.bind (Local.modify _) fun _ => Local.writePacket _

theorem Local.executeCommand (cmd : Command) (bs : Bytes) : Local (Verif.executeCommand cmd bs) :=
  Local.bind Local.cleanup fun _ => Local.bind (Local.modify _) fun _ => Local.writePacket _

theorem Local.writeCommands (cmds : List Bytes) : Local (Verif.writeCommands cmds) := by
  induction cmds with
  | nil => exact Local.pure _
  | cons x xs ih => exact Local.bind (Local.writeCommand _) fun _ => ih

/-- a server error comes from what follows. -/
theorem Local.server {α β : Type} {m : M α} (hm : Local m) (k : α → M β) (c c' : Conn) (e : ErrPacket) :
    (m >>= k) c = (.err (.server e), c') ↔ ∃ a c1, m c = (.ok a, c1) ∧ k a c1 = (.err (.server e), c') := by
  cases h : m c with
  | mk o c1 =>
    cases o with
    | ok a =>
      rw [SM.bind_of_ok h]
      constructor
      · intro g
        exact ⟨a, c1, rfl, g⟩
      · rintro ⟨_, _, g1, g2⟩
        cases g1
        exact g2
    | err a =>
      rw [SM.bind_of_err h]
      constructor
      · intro g
        cases g
        exact absurd h (hm _ _ _)
      · rintro ⟨_, _, g1, g2⟩
        cases g1
    | panic =>
      rw [SM.bind_of_panic h]
      constructor
      · intro g
        cases g
      · rintro ⟨_, _, g1, g2⟩
        cases g1

/-! ### Answers -/

/-- the answer that says "done". -/
theorem done_iff (c c' : Conn) (affected lastId : UInt64) (status warnings : UInt16) (message : Option Str) :
    (∃ ok, (readResponse >>= okOrServerError) c = (.ok ok, c') ∧ ok.affectedRows = affected ∧ ok.lastInsertId = lastId ∧
        ok.status = status ∧ ok.warnings = warnings ∧ ok.message = message) ↔
      ∃ p, Spec.Took c [p] c' ∧ Spec.OkForm p affected lastId status warnings message := by
  simp only [response_ok]
  constructor
  · rintro ⟨ok, ⟨p, h1, h2⟩, h3⟩
    exact ⟨p, h1, (C73_ok _ _ _ _ _ _ _).1 ⟨ok, h2, h3⟩⟩
  · rintro ⟨p, h1, h2⟩
    obtain ⟨ok, h3, h4⟩ := (C73_ok c.data.capabilities _ _ _ _ _ _).2 h2
    exact ⟨ok, ⟨p, h1, h3⟩, h4⟩

/-- **C77**, statements without rows, on any connection: success exactly if what was left is out of the way, the command
gets through, and the answer is an OK packet, … -/
theorem C77_execute_ok (sql : Str) (c c' : Conn) (affected lastId : UInt64) (status warnings : UInt16)
    (message : Option Str) :
    (∃ ok, executeQuery sql c = (.ok ok, c') ∧ ok.affectedRows = affected ∧ ok.lastInsertId = lastId ∧
        ok.status = status ∧ ok.warnings = warnings ∧ ok.message = message) ↔
      ∃ c0 c1 p, Spec.Idle c c0 ∧ Spec.Wrote c0 (0x03 :: utf8 sql) c1 ∧ Spec.Took c1 [p] c' ∧
        Spec.OkForm p affected lastId status warnings message := by
  unfold executeQuery
  constructor
  · rintro ⟨ok, h, h'⟩
    obtain ⟨_, c1, h1, h2⟩ := SM.bind_eq_ok.1 h
    obtain ⟨c0, h3, h4⟩ := (C77_send _ _ _ _).1 h1
    obtain ⟨p, h5, h6⟩ := (done_iff c1 c' _ _ _ _ _).1 ⟨ok, h2, h'⟩
    exact ⟨c0, c1, p, h3, h4, h5, h6⟩
  · rintro ⟨c0, c1, p, h3, h4, h5, h6⟩
    obtain ⟨ok, h2, h'⟩ := (done_iff c1 c' _ _ _ _ _).2 ⟨p, h5, h6⟩
    exact ⟨ok, SM.bind_eq_ok.2 ⟨(), c1, (C77_send .query _ _ _).2 ⟨c0, h3, h4⟩, h2⟩, h'⟩

/-- … an error of the server exactly if it is an ERR packet. -/
theorem C77_execute_error (sql : Str) (c c' : Conn) (code : UInt16) (state : Option Bytes) (msg : Str) :
    executeQuery sql c = (.err (.server (.error code state msg)), c') ↔
      ∃ c0 c1 p, Spec.Idle c c0 ∧ Spec.Wrote c0 (0x03 :: utf8 sql) c1 ∧ Spec.Took c1 [p] c' ∧
        Spec.ErrForm c.data.capabilities p code state msg := by
  unfold executeQuery
  rw [Local.server (Local.executeCommand _ _)]
  constructor
  · rintro ⟨_, c1, h1, h2⟩
    obtain ⟨c0, h3, h4⟩ := (C77_send _ _ _ _).1 h1
    obtain ⟨p, h5, h6⟩ := (response_server c1 c' _).1 h2
    rw [errForm_iff, Wrote.data h4, Idle.data h3] at h6
    exact ⟨c0, c1, p, h3, h4, h5, h6⟩
  · rintro ⟨c0, c1, p, h3, h4, h5, h6⟩
    rw [← Idle.data h3, ← Wrote.data h4, ← errForm_iff] at h6
    exact ⟨(), c1, (C77_send .query _ _ _).2 ⟨c0, h3, h4⟩, (response_server c1 c' _).2 ⟨p, h5, h6⟩⟩

/-- **C77**, prepared statements without rows, on any connection: likewise. The number of values has to be the one the
server announced. -/
theorem C77_statement_ok (st : Prepared) (values : List Value) (req : ExecRequest) (c c' : Conn)
    (hreq : ExecRequest.new (ε := Error) st.id values = .ok req)
    (affected lastId : UInt64) (status warnings : UInt16) (message : Option Str) :
    (∃ ok, st.execute values c = (.ok ok, c') ∧ ok.affectedRows = affected ∧ ok.lastInsertId = lastId ∧
        ok.status = status ∧ ok.warnings = warnings ∧ ok.message = message) ↔
      values.length = st.params ∧ ∃ c0 c1 p, Spec.Idle c c0 ∧ Spec.WroteAll c0 (execCmds st.id values req) c1 ∧
        Spec.Took c1 [p] c' ∧ Spec.OkForm p affected lastId status warnings message := by
  unfold Prepared.execute
  by_cases hn : values.length = st.params
  · rw [if_neg (by simp [hn])]
    constructor
    · rintro ⟨ok, h, h'⟩
      obtain ⟨_, c1, h1, h2⟩ := SM.bind_eq_ok.1 h
      obtain ⟨c0, h3, h4⟩ := (C77_send_statement _ _ _ hreq _ _).1 h1
      obtain ⟨p, h5, h6⟩ := (done_iff c1 c' _ _ _ _ _).1 ⟨ok, h2, h'⟩
      exact ⟨hn, c0, c1, p, h3, h4, h5, h6⟩
    · rintro ⟨_, c0, c1, p, h3, h4, h5, h6⟩
      obtain ⟨ok, h2, h'⟩ := (done_iff c1 c' _ _ _ _ _).2 ⟨p, h5, h6⟩
      exact ⟨ok, SM.bind_eq_ok.2 ⟨(), c1, (C77_send_statement _ _ _ hreq _ _).2 ⟨c0, h3, h4⟩, h2⟩, h'⟩
  · rw [if_pos hn]
    constructor
    · rintro ⟨ok, h, _⟩
      cases h
    · rintro ⟨h, _⟩
      exact absurd h hn

theorem C77_statement_error (st : Prepared) (values : List Value) (req : ExecRequest) (c c' : Conn)
    (hreq : ExecRequest.new (ε := Error) st.id values = .ok req) (code : UInt16) (state : Option Bytes) (msg : Str) :
    st.execute values c = (.err (.server (.error code state msg)), c') ↔
      values.length = st.params ∧ ∃ c0 c1 p, Spec.Idle c c0 ∧ Spec.WroteAll c0 (execCmds st.id values req) c1 ∧
        Spec.Took c1 [p] c' ∧ Spec.ErrForm c.data.capabilities p code state msg := by
  unfold Prepared.execute
  by_cases hn : values.length = st.params
  · rw [if_neg (by simp [hn])]
    have hl : Local (sendExecute st.id values) := by
      rw [sendExecute_eq _ _ _ hreq]
      exact Local.writeCommands _
    rw [Local.server hl]
    constructor
    · rintro ⟨_, c1, h1, h2⟩
      obtain ⟨c0, h3, h4⟩ := (C77_send_statement _ _ _ hreq _ _).1 h1
      obtain ⟨p, h5, h6⟩ := (response_server c1 c' _).1 h2
      rw [errForm_iff, WroteAll.data h4, Idle.data h3] at h6
      exact ⟨hn, c0, c1, p, h3, h4, h5, h6⟩
    · rintro ⟨_, c0, c1, p, h3, h4, h5, h6⟩
      rw [← Idle.data h3, ← WroteAll.data h4, ← errForm_iff] at h6
      exact ⟨(), c1, (C77_send_statement _ _ _ hreq _ _).2 ⟨c0, h3, h4⟩, (response_server c1 c' _).2 ⟨p, h5, h6⟩⟩
  · rw [if_pos hn]
    constructor
    · intro h
      cases h
    · rintro ⟨h, _⟩
      exact absurd h hn

/-- **C77**, preparing, on any connection. -/
theorem C77_prepare (sql : Str) (c c' : Conn) (st : Prepared) :
    prepareStatement sql c = (.ok st, c') ↔
      ∃ c0 c1 p defs, Spec.Idle c c0 ∧ Spec.Wrote c0 (0x16 :: utf8 sql) c1 ∧ Spec.Took c1 (p :: defs) c' ∧
        Spec.StmtForm p st.id st.params defs.length := by
  rw [prepare_eq, SM.bind_eq_ok]
  constructor
  · rintro ⟨_, c1, h, h'⟩
    obtain ⟨c0, h1, h2⟩ := (C77_send _ _ _ _).1 h
    obtain ⟨p, defs, h3, h4⟩ := (prepAnswer_ok _ _ _).1 h'
    exact ⟨c0, c1, p, defs, h1, h2, h3, h4⟩
  · rintro ⟨c0, c1, p, defs, h1, h2, h3, h4⟩
    exact ⟨(), c1, (C77_send .stmtPrepare _ _ _).2 ⟨c0, h1, h2⟩, (prepAnswer_ok _ _ _).2 ⟨p, defs, h3, h4⟩⟩

theorem C77_prepare_error (sql : Str) (c c' : Conn) (code : UInt16) (state : Option Bytes) (msg : Str) :
    prepareStatement sql c = (.err (.server (.error code state msg)), c') ↔
      ∃ c0 c1 p, Spec.Idle c c0 ∧ Spec.Wrote c0 (0x16 :: utf8 sql) c1 ∧ Spec.Took c1 [p] c' ∧
        Spec.ErrForm c.data.capabilities p code state msg := by
  rw [prepare_eq, Local.server (Local.executeCommand _ _)]
  constructor
  · rintro ⟨_, c1, h1, h2⟩
    obtain ⟨c0, h3, h4⟩ := (C77_send _ _ _ _).1 h1
    obtain ⟨p, h5, h6⟩ := (prepAnswer_server _ _ _ _ _).1 h2
    rw [Wrote.data h4, Idle.data h3] at h6
    exact ⟨c0, c1, p, h3, h4, h5, h6⟩
  · rintro ⟨c0, c1, p, h3, h4, h5, h6⟩
    rw [← Idle.data h3, ← Wrote.data h4] at h6
    exact ⟨(), c1, (C77_send .stmtPrepare _ _ _).2 ⟨c0, h3, h4⟩, (prepAnswer_server _ _ _ _ _).2 ⟨p, h5, h6⟩⟩

/-! ### Rows -/

/-- **C77**: a query in the text protocol, on any connection: columns and rows are returned exactly if what was left of
an earlier result is out of the way, the command gets through, and the stream shows a number of columns, their definitions,
rows for these columns and the packet that ends them; the caller gets what they say. -/
theorem C77_query (fp : FloatParse) (sql : Str) (c c' : Conn)
    (cols : List Column) (xs : List (List Value)) (status warnings : UInt16) (message : Option Str) :
    (∃ c1 ok, query sql c = (.ok { columns := cols, okPacket := none }, c1) ∧
        RSet.collect (textReader fp mkPlain) { columns := cols, okPacket := none } c1 =
          (.ok ({ columns := cols, okPacket := some ok }, xs), c') ∧
        ok.affectedRows = 0 ∧ ok.lastInsertId = 0 ∧ ok.status = status ∧ ok.warnings = warnings ∧ ok.message = message) ↔
      ∃ c0 c1 head defs rows last, Spec.Idle c c0 ∧ Spec.Wrote c0 (0x03 :: utf8 sql) c1 ∧
        Spec.Took c1 (head :: defs ++ rows ++ [last]) c' ∧ Spec.CountForm defs.length head ∧
        List.Forall₂ (fun p col => ∃ d, Spec.ColumnForm p d ∧ col = Column.ofDef d) defs cols ∧
        List.Forall₂ (Spec.TextRowForm fp c.data.capabilities (cols.map Column.wireType)) rows xs ∧
        Spec.IsEnd c.data.capabilities last ∧ Spec.EndForm last status warnings message := by
  have e : RowPacket (textReader fp mkPlain) cols c.data.capabilities =
      Spec.TextRowForm fp c.data.capabilities (cols.map Column.wireType) := by
    funext p x
    exact propext (rowPacket_text fp cols _ p x)
  rw [← e]
  unfold query
  constructor
  · rintro ⟨c3, ok, h, h1, h2⟩
    obtain ⟨_, c1, h3, h4⟩ := SM.bind_eq_ok.1 h
    obtain ⟨c0, h5, h6⟩ := (C77_send _ _ _ _).1 h3
    obtain ⟨head, defs, rows, last, g⟩ := (whole (textReader fp mkPlain) c1 c' (by rw [Wrote.pend h6, Idle.pend h5])
      cols xs status warnings message).1 ⟨c3, ok, h4, h1, h2⟩
    rw [Wrote.data h6, Idle.data h5] at g
    exact ⟨c0, c1, head, defs, rows, last, h5, h6, g⟩
  · rintro ⟨c0, c1, head, defs, rows, last, h5, h6, g⟩
    rw [← Idle.data h5, ← Wrote.data h6] at g
    obtain ⟨c3, ok, h4, h1⟩ := (whole (textReader fp mkPlain) c1 c' (by rw [Wrote.pend h6, Idle.pend h5])
      cols xs status warnings message).2 ⟨head, defs, rows, last, g⟩
    exact ⟨c3, ok, SM.bind_eq_ok.2 ⟨(), c1, (C77_send .query _ _ _).2 ⟨c0, h5, h6⟩, h4⟩, h1⟩

/-- **C77**: the same for a prepared statement, in the binary protocol. -/
theorem C77_statement (st : Prepared) (values : List Value) (req : ExecRequest) (c c' : Conn)
    (hreq : ExecRequest.new (ε := Error) st.id values = .ok req)
    (cols : List Column) (xs : List (List Value)) (status warnings : UInt16) (message : Option Str) :
    (∃ c1 ok, st.query values c = (.ok { columns := cols, okPacket := none }, c1) ∧
        RSet.collect (binReader mkPlain) { columns := cols, okPacket := none } c1 =
          (.ok ({ columns := cols, okPacket := some ok }, xs), c') ∧
        ok.affectedRows = 0 ∧ ok.lastInsertId = 0 ∧ ok.status = status ∧ ok.warnings = warnings ∧ ok.message = message) ↔
      values.length = st.params ∧ ∃ c0 c1 head defs rows last, Spec.Idle c c0 ∧
        Spec.WroteAll c0 (execCmds st.id values req) c1 ∧
        Spec.Took c1 (head :: defs ++ rows ++ [last]) c' ∧ Spec.CountForm defs.length head ∧
        List.Forall₂ (fun p col => ∃ d, Spec.ColumnForm p d ∧ col = Column.ofDef d) defs cols ∧
        List.Forall₂ (Spec.BinRowForm c.data.capabilities (cols.map Column.wireType)) rows xs ∧
        Spec.IsEnd c.data.capabilities last ∧ Spec.EndForm last status warnings message := by
  have e : RowPacket (binReader mkPlain) cols c.data.capabilities =
      Spec.BinRowForm c.data.capabilities (cols.map Column.wireType) := by
    funext p x
    exact propext (rowPacket_bin cols _ p x)
  rw [← e]
  unfold Prepared.query
  by_cases hn : values.length = st.params
  · rw [if_neg (by simp [hn])]
    constructor
    · rintro ⟨c3, ok, h, h1, h2⟩
      obtain ⟨_, c1, h3, h4⟩ := SM.bind_eq_ok.1 h
      obtain ⟨c0, h5, h6⟩ := (C77_send_statement _ _ _ hreq _ _).1 h3
      obtain ⟨head, defs, rows, last, g⟩ := (whole (binReader mkPlain) c1 c' (by rw [WroteAll.pend h6, Idle.pend h5])
        cols xs status warnings message).1 ⟨c3, ok, h4, h1, h2⟩
      rw [WroteAll.data h6, Idle.data h5] at g
      exact ⟨hn, c0, c1, head, defs, rows, last, h5, h6, g⟩
    · rintro ⟨_, c0, c1, head, defs, rows, last, h5, h6, g⟩
      rw [← Idle.data h5, ← WroteAll.data h6] at g
      obtain ⟨c3, ok, h4, h1⟩ := (whole (binReader mkPlain) c1 c' (by rw [WroteAll.pend h6, Idle.pend h5])
        cols xs status warnings message).2 ⟨head, defs, rows, last, g⟩
      exact ⟨c3, ok, SM.bind_eq_ok.2 ⟨(), c1, (C77_send_statement _ _ _ hreq _ _).2 ⟨c0, h5, h6⟩, h4⟩, h1⟩
  · rw [if_pos hn]
    constructor
    · rintro ⟨_, _, h, _⟩
      cases h
    · rintro ⟨h, _⟩
      exact absurd h hn

theorem collect_done {R : Type} (rd : RowReader R) (rs : RSet) (c : Conn) (h : rs.okPacket.isSome = true) :
    rs.collect rd c = (.ok (rs, []), c) := by
  unfold RSet.collect RSet.collectLoop
  have hn : rs.next rd c = (.ok (rs, none), c) := by
    unfold RSet.next
    rw [if_pos h]
    rfl
  rw [SM.bind_of_ok hn]
  rfl

theorem drain_ok {R : Type} (rd : RowReader R) (rs : RSet) (c c' : Conn) (rs' : RSet) :
    rs.drain rd c = (.ok rs', c') ↔ ∃ xs, rs.collect rd c = (.ok (rs', xs), c') := by
  unfold RSet.drain
  rw [SM.bind_eq_ok]
  constructor
  · rintro ⟨⟨a, xs⟩, c1, h1, h2⟩
    cases h2
    exact ⟨xs, h1⟩
  · rintro ⟨xs, h1⟩
    exact ⟨_, _, h1, rfl⟩

theorem attempt_iff {α : Type} (m : M α) (c c' : Conn) (r : Except Error α) :
    SM.attempt m c = (.ok r, c') ↔ (∃ a, r = .ok a ∧ m c = (.ok a, c')) ∨ (∃ e, r = .error e ∧ m c = (.err e, c')) := by
  unfold SM.attempt
  cases h : m c with
  | mk o c1 =>
    cases o with
    | ok a =>
      constructor
      · intro g
        cases g
        exact Or.inl ⟨a, rfl, rfl⟩
      · rintro (⟨_, rfl, g⟩ | ⟨_, rfl, g⟩) <;> cases g
        rfl
    | err a =>
      constructor
      · intro g
        cases g
        exact Or.inr ⟨a, rfl, rfl⟩
      · rintro (⟨_, rfl, g⟩ | ⟨_, rfl, g⟩) <;> cases g
        rfl
    | panic =>
      constructor
      · intro g
        cases g
      · rintro (⟨_, rfl, g⟩ | ⟨_, rfl, g⟩) <;> cases g

/-- **C77**, one row: it is returned exactly if rows follow one another and then their end; it is the first of them, and
there is none exactly if there are none. -/
theorem C77_one {R : Type} (rd : RowReader R) (rs : RSet) (c c' : Conn) (rs' : RSet) (r : Option R)
    (h : rs.okPacket = none) :
    rs.one rd c = (.ok (rs', r), c') ↔
      ∃ rows xs last c1 ok, Spec.Took c (rows ++ [last]) c1 ∧
        List.Forall₂ (RowPacket rd rs.columns c.data.capabilities) rows xs ∧
        Spec.IsEnd c.data.capabilities last ∧ runP (OkPacket.readEof c.data.capabilities) last = .ok ok ∧
        r = xs.head? ∧ rs' = { rs with okPacket := some ok } ∧ c' = { c1 with pendingResult := false } := by
  unfold RSet.one
  rw [SM.bind_eq_ok]
  constructor
  · rintro ⟨res, c1, h1, h2⟩
    rcases (attempt_iff _ _ _ _).1 h1 with ⟨⟨rs1, r1⟩, rfl, h3⟩ | ⟨e, rfl, h3⟩
    · obtain ⟨rs2, c2, h4, h5⟩ := SM.bind_eq_ok.1 h2
      cases h5
      obtain ⟨ys, h6⟩ := (drain_ok _ _ _ _ _).1 h4
      cases r with
      | none =>
        obtain ⟨p, c3, ok, g1, g2, g3, g4, g5⟩ := (C76_next_end rd rs c c1 rs1 h).1 h3
        rw [collect_done rd rs1 c1 (by rw [g4]; rfl)] at h6
        cases h6
        exact ⟨[], [], p, c3, ok, g1, .nil, g2, g3, rfl, g4, g5⟩
      | some x =>
        obtain ⟨rfl, p, g1, g2⟩ := (C76_next_row rd rs c c1 rs1 x h).1 h3
        obtain ⟨rows, last, c3, ok, k1, k2, k3, k4, k5, k6⟩ := (C76_collect rd rs1 c1 c' rs' ys h).1 h6
        rw [Took.caps g1] at k2 k3 k4
        exact ⟨p :: rows, x :: ys, last, c3, ok, (Took.cons _ _ _ _).2 ⟨c1, g1, k1⟩, .cons g2 k2, k3, k4, rfl, k5, k6⟩
    · obtain ⟨_, _, _, h5⟩ := SM.bind_eq_ok.1 h2
      cases h5
  · rintro ⟨rows, xs, last, c1, ok, k1, k2, k3, k4, k5, k6, k7⟩
    cases k2 with
    | nil =>
      have h3 := (C76_next_end rd rs c c' rs' h).2 ⟨last, c1, ok, k1, k3, k4, k6, k7⟩
      refine ⟨.ok (rs', none), c', (attempt_iff _ _ _ _).2 (Or.inl ⟨_, rfl, h3⟩), ?_⟩
      dsimp only
      refine SM.bind_eq_ok.2 ⟨rs', c', (drain_ok _ _ _ _ _).2 ⟨[], collect_done rd rs' c' (by rw [k6]; rfl)⟩, ?_⟩
      rw [k5]
      rfl
    | @cons p x rows xs g2 k2 =>
      obtain ⟨c2, g1, k1⟩ := (Took.cons _ _ _ _).1 k1
      have h3 := (C76_next_row rd rs c c2 rs x h).2 ⟨rfl, p, g1, g2⟩
      refine ⟨.ok (rs, some x), c2, (attempt_iff _ _ _ _).2 (Or.inl ⟨_, rfl, h3⟩), ?_⟩
      rw [← Took.caps g1] at k2 k3 k4
      dsimp only
      refine SM.bind_eq_ok.2 ⟨rs', c', (drain_ok _ _ _ _ _).2 ⟨xs,
        (C76_collect rd rs c2 c' rs' xs h).2 ⟨rows, last, c1, ok, k1, k2, k3, k4, k6, k7⟩⟩, ?_⟩
      rw [k5]
      rfl

/-- **C77**, no rows wanted: the end is returned exactly if it follows after rows, all of which have to be readable. -/
theorem C77_finish {R : Type} (rd : RowReader R) (rs : RSet) (c c' : Conn) (ok : OkPacket)
    (h : rs.okPacket = none) :
    rs.finish rd c = (.ok ok, c') ↔
      ∃ rows xs last c1, Spec.Took c (rows ++ [last]) c1 ∧
        List.Forall₂ (RowPacket rd rs.columns c.data.capabilities) rows xs ∧
        Spec.IsEnd c.data.capabilities last ∧ runP (OkPacket.readEof c.data.capabilities) last = .ok ok ∧
        c' = { c1 with pendingResult := false } := by
  unfold RSet.finish
  rw [h]
  dsimp only
  rw [SM.bind_eq_ok]
  constructor
  · rintro ⟨rs1, c1, h1, h2⟩
    obtain ⟨xs, h3⟩ := (drain_ok _ _ _ _ _).1 h1
    obtain ⟨rows, last, c3, ok', k1, k2, k3, k4, k5, k6⟩ := (C76_collect rd rs c c1 rs1 xs h).1 h3
    subst k5
    cases h2
    exact ⟨rows, xs, last, c3, k1, k2, k3, k4, k6⟩
  · rintro ⟨rows, xs, last, c3, k1, k2, k3, k4, k6⟩
    exact ⟨_, c', (drain_ok _ _ _ _ _).2 ⟨xs, (C76_collect rd rs c c' _ xs h).2
      ⟨rows, last, c3, ok, k1, k2, k3, k4, rfl, k6⟩⟩, rfl⟩

/-! ### Panics -/

theorem panic_bind {α β : Type} (m : M α) (k : α → M β) (c c' : Conn) :
    (m >>= k) c = (.panic, c') ↔ m c = (.panic, c') ∨ ∃ a c1, m c = (.ok a, c1) ∧ k a c1 = (.panic, c') := by
  cases h : m c with
  | mk o c1 =>
    cases o with
    | ok a =>
      rw [SM.bind_of_ok h]
      constructor
      · intro g
        exact Or.inr ⟨a, c1, rfl, g⟩
      · rintro (g | ⟨_, _, g1, g2⟩)
        · cases g
        · cases g1
          exact g2
    | err a =>
      rw [SM.bind_of_err h]
      constructor
      · intro g
        cases g
      · rintro (g | ⟨_, _, g1, g2⟩)
        · cases g
        · cases g1
    | panic =>
      rw [SM.bind_of_panic h]
      constructor
      · intro g
        cases g
        exact Or.inl rfl
      · rintro (g | ⟨_, _, g1, g2⟩)
        · cases g
          rfl
        · cases g1

/-- **C77**: sending a command panics exactly at an empty packet among the leftovers. -/
theorem C77_send_panic (cmd : Command) (data : Bytes) (c c' : Conn) :
    executeCommand cmd data c = (.panic, c') ↔ c.pendingResult = true ∧
      ∃ left, Spec.Took c (left ++ [[]]) c' ∧ ∀ p ∈ left, Spec.Passed c.data.capabilities p := by
  unfold executeCommand
  rw [panic_bind, C77_idle_panic]
  constructor
  · rintro (h | ⟨_, c1, _, h⟩)
    · exact h
    · exfalso
      rw [SM.modify_bind_apply] at h
      obtain ⟨t, f, s, o, h1, _, h2⟩ := writePacket_gen (cmd.toByte :: data) { c1 with seqId := 0 }
      rw [h1] at h
      rcases h2 with ⟨rfl, _⟩ | ⟨e, rfl⟩ <;> cases h
  · exact Or.inl

/-- a row at which reading the text protocol panics, and one of the binary protocol. -/
theorem badPacket_text (fp : FloatParse) (cols : List Column) (caps : UInt32) (p : Bytes) :
    BadPacket (textReader fp mkPlain) cols caps p ↔ p = [] ∨ (¬ Spec.IsEnd caps p ∧
      ∃ before c after vs b l txt rest, cols = before ++ c :: after ∧
        Spec.TextCells fp (before.map Column.wireType) vs b ∧ Spec.IntForm txt.length l ∧ l ≠ [0xFB] ∧
        Spec.TextPanics c.type.toByte.toNat txt ∧ p = b ++ l ++ txt ++ rest) := by
  unfold BadPacket
  refine or_congr Iff.rfl (and_congr Iff.rfl ?_)
  rw [← C74_row_panic]
  constructor
  · rintro (h | ⟨vs, _, h⟩)
    · exact h
    · change mkPlain cols vs = .panic at h
      unfold mkPlain at h
      split at h <;> cases h
  · exact Or.inl

theorem badPacket_bin (cols : List Column) (caps : UInt32) (p : Bytes) :
    BadPacket (binReader mkPlain) cols caps p ↔ p = [] ∨ (¬ Spec.IsEnd caps p ∧
      ∃ head bm s before c after vs, bm.length = (cols.length + 9) / 8 ∧ p = head :: bm ++ s ∧
        cols = before ++ c :: after ∧ Spec.BinCells bm 0 (before.map Column.wireType) vs s ∧
        Spec.bitSet bm (before.length + 2) = false ∧
        c.type.toByte.toNat ∈ [14, 17, 18, 19, 20, 243]) := by
  unfold BadPacket
  refine or_congr Iff.rfl (and_congr Iff.rfl ?_)
  rw [← C75_row_panic]
  constructor
  · rintro (h | ⟨vs, _, h⟩)
    · exact h
    · change mkPlain cols vs = .panic at h
      unfold mkPlain at h
      split at h <;> cases h
  · exact Or.inl

/-- **C77**: asking panics exactly at an empty packet among the leftovers or if the answer is a request for a local
file or announces too many columns, … -/
theorem C77_query_panic (sql : Str) (c c' : Conn) :
    query sql c = (.panic, c') ↔
      (c.pendingResult = true ∧ ∃ left, Spec.Took c (left ++ [[]]) c' ∧ ∀ p ∈ left, Spec.Passed c.data.capabilities p) ∨
      ∃ c0 c1, Spec.Idle c c0 ∧ Spec.Wrote c0 (0x03 :: utf8 sql) c1 ∧ Spec.HeadPanics c1 c' := by
  unfold query
  rw [panic_bind, C77_send_panic]
  refine or_congr Iff.rfl ?_
  constructor
  · rintro ⟨_, c1, h, h'⟩
    obtain ⟨c0, h1, h2⟩ := (C77_send _ _ _ _).1 h
    exact ⟨c0, c1, h1, h2, (C76_head_panic _ _).1 h'⟩
  · rintro ⟨c0, c1, h1, h2, h3⟩
    exact ⟨(), c1, (C77_send .query _ _ _).2 ⟨c0, h1, h2⟩, (C76_head_panic _ _).2 h3⟩

/-- … and reading the rows exactly at an empty packet, a cell of one of eight types or a time with a long fraction
(text), … -/
theorem C77_rows_panic_text (fp : FloatParse) (rs : RSet) (c c' : Conn) (h : rs.okPacket = none) :
    rs.collect (textReader fp mkPlain) c = (.panic, c') ↔
      ∃ rows xs bad, Spec.Took c (rows ++ [bad]) c' ∧
        List.Forall₂ (Spec.TextRowForm fp c.data.capabilities (rs.columns.map Column.wireType)) rows xs ∧
        (bad = [] ∨ (¬ Spec.IsEnd c.data.capabilities bad ∧
          ∃ before col after vs b l txt rest, rs.columns = before ++ col :: after ∧
            Spec.TextCells fp (before.map Column.wireType) vs b ∧ Spec.IntForm txt.length l ∧ l ≠ [0xFB] ∧
            Spec.TextPanics col.type.toByte.toNat txt ∧ bad = b ++ l ++ txt ++ rest)) := by
  have e : RowPacket (textReader fp mkPlain) rs.columns c.data.capabilities =
      Spec.TextRowForm fp c.data.capabilities (rs.columns.map Column.wireType) := by
    funext p x
    exact propext (rowPacket_text fp _ _ p x)
  rw [C76_collect_panic _ _ _ _ h, e]
  simp only [badPacket_text]

/-- … or a cell of one of six types (binary). -/
theorem C77_rows_panic_bin (rs : RSet) (c c' : Conn) (h : rs.okPacket = none) :
    rs.collect (binReader mkPlain) c = (.panic, c') ↔
      ∃ rows xs bad, Spec.Took c (rows ++ [bad]) c' ∧
        List.Forall₂ (Spec.BinRowForm c.data.capabilities (rs.columns.map Column.wireType)) rows xs ∧
        (bad = [] ∨ (¬ Spec.IsEnd c.data.capabilities bad ∧
          ∃ head bm s before col after vs, bm.length = (rs.columns.length + 9) / 8 ∧ bad = head :: bm ++ s ∧
            rs.columns = before ++ col :: after ∧ Spec.BinCells bm 0 (before.map Column.wireType) vs s ∧
            Spec.bitSet bm (before.length + 2) = false ∧ col.type.toByte.toNat ∈ [14, 17, 18, 19, 20, 243])) := by
  have e : RowPacket (binReader mkPlain) rs.columns c.data.capabilities =
      Spec.BinRowForm c.data.capabilities (rs.columns.map Column.wireType) := by
    funext p x
    exact propext (rowPacket_bin _ _ p x)
  rw [C76_collect_panic _ _ _ _ h, e]
  simp only [badPacket_bin]

namespace C77ex

/-- the outcome of a statement on a connection with rows left on the stream, and what is left of the stream. -/
def run (left answer : List Bytes) (wf : List (Option (Nat × IoKind))) : Option UInt64 × Nat × List Rx × Bool :=
  let c := exConn (Spec.framesAll 1 left ++ Spec.framesAll 1 answer ++ [9])
  match executeQuery "q".toList { c with
    wfaults := wf
    pendingResult := true } with
  | (.ok ok, c') => (some ok.affectedRows, c'.tx.length, c'.rx, c'.pendingResult)
  | (_, c') => (none, c'.tx.length, c'.rx, c'.pendingResult)

end C77ex

open C77ex in
/-- rows left and their end, then the answer; an error among what was left goes unnoticed; the third call that writes
would fail, but there are two only; the second fails after one byte; an empty packet among what was left. -/
theorem C77_example :
    run [[1, 55], [0xFB], [0xFE, 0, 0, 2, 0, 0, 0]] [[0, 5, 0, 2, 0, 0, 0]] [] = (some 5, 6, [.byte 9], false) ∧
    run [[1, 55], [0xFF, 1, 4, 0x23, 50, 50, 50, 50, 50, 33], [0xFE, 0, 0, 2, 0, 0, 0]] [[0, 5, 0, 2, 0, 0, 0]] [] =
      (some 5, 6, [.byte 9], false) ∧
    run [[0xFE, 0, 0, 2, 0, 0, 0]] [[0, 5, 0, 2, 0, 0, 0]] [none, none, some (0, .closed)] = (some 5, 6, [.byte 9], false) ∧
    (run [[0xFE, 0, 0, 2, 0, 0, 0]] [] [none, some (1, .closed)]) = (none, 5, [.byte 9], false) ∧
    (run [[1, 55], []] [] []) = (none, 0, [.byte 9], true) := by
  refine ⟨?_, ?_, ?_, ?_, ?_⟩ <;> decide +kernel

end Verif

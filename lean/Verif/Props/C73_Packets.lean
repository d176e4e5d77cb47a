import Verif.Proofs.Decodes
import Verif.Spec.Accepted
import Verif.Proofs.Query
import Verif.Proofs.NoPanic
import Verif.Proofs.Auth
import Verif.Proofs.Handshake

/-! # C73 — what is accepted as a packet of the server is well formed -/

namespace Verif

open Decodes

theorem SM.bind_assoc' {σ ε α β γ : Type} (m : SM σ ε α) (f : α → SM σ ε β) (g : β → SM σ ε γ) :
    (m >>= f) >>= g = m >>= fun a => f a >>= g := by
  funext s
  cases h : m s with
  | mk o s' =>
    cases o with
    | ok a =>
      rw [SM.bind_of_ok h]
      cases h2 : f a s' with
      | mk o2 s2 =>
        have : (m >>= f) s = (o2, s2) := by rw [SM.bind_of_ok h, h2]
        cases o2 with
        | ok b => rw [SM.bind_of_ok this, SM.bind_of_ok h2]
        | err e => rw [SM.bind_of_err this, SM.bind_of_err h2]
        | panic => rw [SM.bind_of_panic this, SM.bind_of_panic h2]
    | err e => rw [SM.bind_of_err h, SM.bind_of_err (SM.bind_of_err h)]
    | panic => rw [SM.bind_of_panic h, SM.bind_of_panic (SM.bind_of_panic h)]

theorem checkedEatState : Decodes (do
    let s ← P.checkedEat 5
    match fromUtf8 s with
    | some _ => pure (some s)
    | none => SM.fail (.parse .utf8)) fun (y : Option Bytes) b => y = some b ∧ Spec.StateText b := by
  intro s x s'
  rw [SM.bind_eq_ok]
  constructor
  · rintro ⟨a, s1, h1, h2⟩
    obtain ⟨b, ⟨hb, e⟩, rfl⟩ := (Decodes.checkedEat 5 _ _ _).1 h1
    subst e
    cases hu : fromUtf8 a with
    | none => rw [hu] at h2; cases h2
    | some t =>
      rw [hu] at h2
      cases h2
      exact ⟨_, ⟨rfl, hb, t, utf8_of_fromUtf8 hu⟩, rfl⟩
  · rintro ⟨b, ⟨rfl, hb, t, rfl⟩, rfl⟩
    refine ⟨utf8 t, s', (Decodes.checkedEat 5 _ _ _).2 ⟨_, ⟨hb, rfl⟩, rfl⟩, ?_⟩
    rw [fromUtf8_utf8]
    rfl

theorem errState_reads (p41 : Bool) : Decodes (
    if p41 then do
      let m ← P.checkedEatU8
      if m ≠ 0x23 then do
        let rest ← SM.get
        SM.fail (.invalidPacket rest)
      else do
        let s ← P.checkedEat 5
        match fromUtf8 s with
        | some _ => pure (some s)
        | none => SM.fail (.parse .utf8)
    else pure none)
    fun (y : Option Bytes) b => b = Spec.errState y ∧
      if p41 then ∃ s, y = some s ∧ Spec.StateText s else y = none := by
  cases p41 with
  | false =>
    refine (Decodes.pure' none).of_iff fun y b => ?_
    constructor
    · rintro ⟨rfl, rfl⟩
      exact ⟨rfl, rfl⟩
    · rintro ⟨h1, h2⟩
      have h2 : y = none := h2
      subst h2
      exact ⟨rfl, h1⟩
  | true =>
    intro s x s'
    rw [if_pos rfl, SM.bind_eq_ok]
    constructor
    · rintro ⟨a, s1, h1, h2⟩
      obtain ⟨b, rfl, rfl⟩ := (Decodes.checkedEatU8 _ _ _).1 h1
      by_cases ha : a ≠ 0x23
      · rw [if_pos ha] at h2
        cases h2
      · rw [if_neg ha] at h2
        obtain ⟨b, ⟨rfl, hb⟩, rfl⟩ := (checkedEatState _ _ _).1 h2
        have : a = 0x23 := Decidable.not_not.1 ha
        subst this
        exact ⟨0x23 :: b, ⟨rfl, b, rfl, hb⟩, rfl⟩
    · rintro ⟨b, ⟨rfl, h⟩, rfl⟩
      obtain ⟨t, rfl, ht⟩ : ∃ s, x = some s ∧ Spec.StateText s := h
      refine ⟨0x23, t ++ s', (Decodes.checkedEatU8 _ _ _).2 ⟨_, rfl, rfl⟩, ?_⟩
      rw [if_neg (by decide)]
      exact (checkedEatState _ _ _).2 ⟨t, ⟨rfl, ht⟩, rfl⟩

theorem lenencInt_reads : Decodes P.checkedEatLenencInt fun y b => Spec.IntForm y.toNat b := by
  unfold P.checkedEatLenencInt
  refine (Decodes.checkedEatU8.bind fun x => Decodes.ite _ (Decodes.pure' _) (Decodes.ite _
    (Decodes.map Decodes.checkedEatU16) (Decodes.ite _ (Decodes.map Decodes.checkedEatU24) (Decodes.ite _
    Decodes.checkedEatU64 (Decodes.pure' 0))))).of_iff fun y b => ?_
  constructor
  · rintro ⟨x, _, b, rfl, h, rfl⟩
    rcases h with ⟨h, rfl, rfl⟩ | ⟨h0, ⟨rfl, z, rfl, rfl⟩ | ⟨h1, ⟨rfl, z, ⟨hz, rfl⟩, rfl⟩ | ⟨h2, ⟨rfl, rfl⟩ |
      ⟨h3, rfl, rfl⟩⟩⟩⟩
    · refine Or.inl ⟨?_, ?_⟩
      · rw [UInt64.toNat_ofNat']
        omega
      · have := x.toNat_lt
        rw [UInt64.toNat_ofNat', Nat.mod_eq_of_lt (by omega)]
        simp
    · have := z.toNat_lt
      refine Or.inr (Or.inl ?_)
      rw [UInt64.toNat_ofNat', Nat.mod_eq_of_lt (by omega)]
      exact ⟨by omega, rfl⟩
    · refine Or.inr (Or.inr (Or.inl ?_))
      rw [UInt64.toNat_ofNat', Nat.mod_eq_of_lt (by omega)]
      exact ⟨hz, rfl⟩
    · exact Or.inr (Or.inr (Or.inr (Or.inl ⟨y.toNat_lt, rfl⟩)))
    · refine Or.inr (Or.inr (Or.inr (Or.inr ⟨rfl, ?_⟩)))
      have hx : ∀ x : UInt8, ¬ x.toNat ≤ 0xfa → ¬ x = 0xfc → ¬ x = 0xfd → ¬ x = 0xfe → x = 0xFB ∨ x = 0xFF := by
        intro x h0 h1 h2 h3
        have l := x.toNat_lt
        have d : ∀ y : UInt8, ¬ x = y → x.toNat ≠ y.toNat := fun y h e => h (UInt8.toNat_inj.1 e)
        have d1 := d _ h1
        have d2 := d _ h2
        have d3 := d _ h3
        change x.toNat ≠ 252 at d1
        change x.toNat ≠ 253 at d2
        change x.toNat ≠ 254 at d3
        rcases (by omega : x.toNat = 251 ∨ x.toNat = 255) with h | h
        · exact Or.inl (UInt8.toNat_inj.1 h)
        · exact Or.inr (UInt8.toNat_inj.1 h)
      rcases hx x h0 h1 h2 h3 with rfl | rfl
      · exact Or.inl rfl
      · exact Or.inr rfl
  · rintro (⟨h, rfl⟩ | ⟨h, rfl⟩ | ⟨h, rfl⟩ | ⟨h, rfl⟩ | ⟨h, rfl | rfl⟩)
    · refine ⟨UInt8.ofNat y.toNat, _, [], rfl, Or.inl ?_, rfl⟩
      have : (UInt8.ofNat y.toNat).toNat = y.toNat := by rw [UInt8.toNat_ofNat']; omega
      rw [this]
      exact ⟨h, by simp, rfl⟩
    · refine ⟨0xFC, _, _, rfl, Or.inr ⟨by decide, Or.inl ⟨rfl, UInt16.ofNat y.toNat, rfl, ?_⟩⟩, ?_⟩
      all_goals
        have : (UInt16.ofNat y.toNat).toNat = y.toNat := by rw [UInt16.toNat_ofNat']; omega
        rw [this]
        simp
    · have : (UInt32.ofNat y.toNat).toNat = y.toNat := by rw [UInt32.toNat_ofNat']; omega
      refine ⟨0xFD, _, _, rfl, Or.inr ⟨by decide, Or.inr ⟨by decide, Or.inl ⟨rfl, UInt32.ofNat y.toNat,
        ⟨by omega, rfl⟩, ?_⟩⟩⟩, ?_⟩
      all_goals
        rw [this]
        simp
    · exact ⟨0xFE, _, _, rfl, Or.inr ⟨by decide, Or.inr ⟨by decide, Or.inr ⟨by decide, Or.inl ⟨rfl, rfl⟩⟩⟩⟩, rfl⟩
    · have : y = 0 := UInt64.toNat_inj.1 h
      subst this
      exact ⟨0xFB, _, [], rfl, Or.inr ⟨by decide, Or.inr ⟨by decide, Or.inr ⟨by decide, Or.inr ⟨by decide, rfl, rfl⟩⟩⟩⟩, rfl⟩
    · have : y = 0 := UInt64.toNat_inj.1 h
      subst this
      exact ⟨0xFF, _, [], rfl, Or.inr ⟨by decide, Or.inr ⟨by decide, Or.inr ⟨by decide, Or.inr ⟨by decide, rfl, rfl⟩⟩⟩⟩, rfl⟩

theorem lenencSlice_reads : Decodes P.checkedEatLenencSlice fun y b =>
    ∃ l, y.length < 2 ^ 64 ∧ Spec.IntForm y.length l ∧ b = l ++ y := by
  unfold P.checkedEatLenencSlice
  refine (lenencInt_reads.bind fun n => Decodes.checkedEat n.toNat).of_iff fun y b => ?_
  constructor
  · rintro ⟨n, l, _, h1, ⟨h2, rfl⟩, rfl⟩
    rw [← h2] at h1
    exact ⟨l, h2 ▸ n.toNat_lt, h1, rfl⟩
  · rintro ⟨l, h, h1, rfl⟩
    have e : (UInt64.ofNat y.length).toNat = y.length := by rw [UInt64.toNat_ofNat']; omega
    exact ⟨UInt64.ofNat y.length, l, y, by rw [e]; exact h1, ⟨e.symm, rfl⟩, rfl⟩

theorem u8Slice_reads : Decodes P.checkedEatU8Slice fun y b => y.length < 256 ∧ b = UInt8.ofNat y.length :: y := by
  unfold P.checkedEatU8Slice
  refine (Decodes.checkedEatU8.bind fun n => Decodes.checkedEat n.toNat).of_iff fun y b => ?_
  constructor
  · rintro ⟨n, _, _, rfl, ⟨h, rfl⟩, rfl⟩
    rw [h]
    exact ⟨n.toNat_lt, by simp⟩
  · rintro ⟨h, rfl⟩
    exact ⟨UInt8.ofNat y.length, _, y, rfl, ⟨by rw [UInt8.toNat_ofNat']; omega, rfl⟩, rfl⟩

theorem u8Str_reads : Decodes P.checkedEatU8Str fun y b => (utf8 y).length < 256 ∧ b = Spec.str8 y := by
  intro s x s'
  unfold P.checkedEatU8Str
  rw [SM.bind_eq_ok]
  constructor
  · rintro ⟨a, s1, h1, h2⟩
    obtain ⟨b, ⟨hb, rfl⟩, rfl⟩ := (u8Slice_reads _ _ _).1 h1
    cases hu : fromUtf8 a with
    | none => rw [hu] at h2; cases h2
    | some t =>
      rw [hu] at h2
      cases h2
      have := utf8_of_fromUtf8 hu
      subst this
      exact ⟨_, ⟨hb, rfl⟩, rfl⟩
  · rintro ⟨b, ⟨hb, rfl⟩, rfl⟩
    refine ⟨utf8 x, s', (u8Slice_reads _ _ _).2 ⟨_, ⟨hb, rfl⟩, rfl⟩, ?_⟩
    rw [fromUtf8_utf8]
    rfl

/-- the end of `deserializeError`. -/
def ErrPacket.errorEnd (code : UInt16) (state : Option Bytes) : P ErrPacket := do
  let rest ← P.eatAll
  match fromUtf8 rest with
  | some msg => pure (.error code state msg)
  | none => SM.fail (.parse .fromUtf8)

theorem deserializeError_eq (code : UInt16) (p41 : Bool) : ErrPacket.deserializeError code p41 = (do
    let state ← (if p41 then do
        let m ← P.checkedEatU8
        if m ≠ 0x23 then do
          let rest ← SM.get
          SM.fail (.invalidPacket rest)
        else do
          let s ← P.checkedEat 5
          match fromUtf8 s with
          | some _ => pure (some s)
          | none => SM.fail (.parse .utf8)
      else pure none)
    ErrPacket.errorEnd code state) := by
  unfold ErrPacket.deserializeError
  cases p41 with
  | false => rfl
  | true =>
    dsimp only
    rw [if_pos rfl, if_pos rfl, SM.bind_assoc']
    congr 1
    funext m
    split
    · rfl
    · rw [SM.bind_assoc']
      congr 1
      funext b
      cases fromUtf8 b <;> rfl

theorem error_ends (code : UInt16) (p41 : Bool) : Ends (ErrPacket.deserializeError code p41) fun y s =>
    ∃ state msg, y = .error code state msg ∧ Spec.stateFor p41 state ∧ s = Spec.errState state ++ utf8 msg := by
  have hend : ∀ state : Option Bytes, Ends (ErrPacket.errorEnd code state) fun y s =>
      ∃ msg, y = ErrPacket.error code state msg ∧ s = utf8 msg := by
    intro state s x
    unfold ErrPacket.errorEnd
    have e : P.eatAll s = (.ok s, []) := rfl
    unfold runP
    rw [SM.bind_of_ok e]
    cases hu : fromUtf8 s with
    | none =>
      constructor
      · intro h
        cases h
      · rintro ⟨msg, _, rfl⟩
        rw [fromUtf8_utf8] at hu
        cases hu
    | some t =>
      constructor
      · intro h
        cases h
        exact ⟨t, rfl, (utf8_of_fromUtf8 hu).symm⟩
      · rintro ⟨msg, rfl, rfl⟩
        rw [fromUtf8_utf8] at hu
        cases hu
        rfl
  have he : ∀ G, Ends (do
      let state ← (if p41 then do
          let m ← P.checkedEatU8
          if m ≠ 0x23 then do
            let rest ← SM.get
            SM.fail (.invalidPacket rest)
          else do
            let s ← P.checkedEat 5
            match fromUtf8 s with
            | some _ => pure (some s)
            | none => SM.fail (.parse .utf8)
        else pure none)
      ErrPacket.errorEnd code state) G → Ends (ErrPacket.deserializeError code p41) G := by
    intro G h s x
    rw [← h s x, deserializeError_eq]
  refine he _ ((Decodes.bindEnds (errState_reads p41) hend).of_iff fun y s => ?_)
  constructor
  · rintro ⟨state, _, _, ⟨rfl, h⟩, ⟨msg, rfl, rfl⟩, rfl⟩
    exact ⟨state, msg, rfl, h, rfl⟩
  · rintro ⟨state, msg, rfl, h, rfl⟩
    exact ⟨state, _, _, ⟨rfl, h⟩, ⟨msg, rfl, rfl⟩, rfl⟩

theorem progress_reads : Decodes ErrPacket.deserializeProgress fun y b =>
    ∃ n stage maxStage progress l info, y = .progress stage maxStage progress info ∧ progress.toNat < 2 ^ 24 ∧
      info.length < 2 ^ 64 ∧ Spec.IntForm info.length l ∧
      b = Spec.progressTail n stage maxStage progress l info := by
  unfold ErrPacket.deserializeProgress
  refine From.checkLen (n := 6) ?_ ?_
  · refine ((Decodes.skip 6 1 (by omega)).bind (k := 1) (fun _ _ h => h) fun _ =>
      (Decodes.eatU8.from' 5).bind (k := 1) (fun _ _ h => by rw [h]; rfl) fun stage =>
      (Decodes.eatU8.from' 4).bind (k := 1) (fun _ _ h => by rw [h]; rfl) fun maxStage =>
      (Decodes.eatU24.from' 3).bind (k := 3) (fun _ _ h => by rw [h.2, le_length]) fun progress =>
      (Decodes.map lenencSlice_reads).from' 0).of_iff fun y b => ?_
    constructor
    · rintro ⟨_, b1, _, h1, ⟨stage, _, _, rfl, ⟨maxStage, _, _, rfl, ⟨progress, _, _, ⟨hp, rfl⟩,
        ⟨info, ⟨l, hi, hl, rfl⟩, rfl⟩, rfl⟩, rfl⟩, rfl⟩, rfl⟩
      obtain ⟨h, rfl⟩ := List.length_eq_one_iff.1 h1
      exact ⟨h, stage, maxStage, progress, l, info, rfl, hp, hi, hl, by simp [Spec.progressTail]⟩
    · rintro ⟨n, stage, maxStage, progress, l, info, rfl, hp, hi, hl, rfl⟩
      exact ⟨(), [n], _, rfl, ⟨stage, _, _, rfl, ⟨maxStage, _, _, rfl, ⟨progress, _, _, ⟨hp, rfl⟩,
        ⟨info, ⟨l, hi, hl, rfl⟩, rfl⟩, rfl⟩, rfl⟩, rfl⟩, by simp [Spec.progressTail]⟩
  · rintro y b ⟨n, stage, maxStage, progress, l, info, rfl, hp, hi, hl, rfl⟩
    simp [Spec.progressTail, le_length]

theorem errPacket_ends (caps : UInt32) : Ends (ErrPacket.deserialize caps) fun y bs =>
    ∃ code : UInt16, ∃ rest, bs = [0xFF] ++ Spec.le 2 code.toNat ++ rest ∧
      if code = 0xFFFF ∧ hasFlag32 caps Cap.PROGRESS_OBSOLETE then
        ∃ n stage maxStage progress l info tail, y = .progress stage maxStage progress info ∧
          progress.toNat < 2 ^ 24 ∧ info.length < 2 ^ 64 ∧ Spec.IntForm info.length l ∧
          rest = Spec.progressTail n stage maxStage progress l info ++ tail
      else
        ∃ state msg, y = .error code state msg ∧ Spec.stateFor (hasFlag32 caps Cap.PROTOCOL_41) state ∧
          rest = Spec.errState state ++ utf8 msg := by
  unfold ErrPacket.deserialize
  refine Ends.checkLen (n := 3) ?_ ?_
  · refine (Decodes.bindEnds Decodes.eatU8 fun h => Ends.ite (h ≠ 0xFF) (Ends.getFail _)
      (Decodes.bindEnds Decodes.eatU16 fun code => Ends.ite _ progress_reads.ends (error_ends code _))).of_iff
      fun y bs => ?_
    constructor
    · rintro ⟨h, _, _, rfl, ⟨_, hf⟩ | ⟨h1, code, _, rest, rfl, hc, rfl⟩, rfl⟩
      · exact hf.elim
      · have : h = 0xFF := Decidable.not_not.1 h1
        subst this
        refine ⟨code, rest, by simp, ?_⟩
        rcases hc with ⟨hc, _, tail, ⟨n, stage, maxStage, progress, l, info, h2, hp, hi, hl, rfl⟩, rfl⟩ | ⟨hc, h2⟩
        · rw [if_pos hc]
          exact ⟨n, stage, maxStage, progress, l, info, tail, h2, hp, hi, hl, rfl⟩
        · rw [if_neg hc]
          exact h2
    · rintro ⟨code, rest, rfl, h⟩
      refine ⟨0xFF, _, _, rfl, Or.inr ⟨by decide, code, _, rest, rfl, ?_, rfl⟩, by simp⟩
      by_cases hc : code = 0xFFFF ∧ hasFlag32 caps Cap.PROGRESS_OBSOLETE
      · rw [if_pos hc] at h
        obtain ⟨n, stage, maxStage, progress, l, info, tail, h2, hp, hi, hl, rfl⟩ := h
        exact Or.inl ⟨hc, _, tail, ⟨n, stage, maxStage, progress, l, info, h2, hp, hi, hl, rfl⟩, rfl⟩
      · rw [if_neg hc] at h
        exact Or.inr ⟨hc, h⟩
  · rintro y bs ⟨code, rest, rfl, h⟩
    simp [le_length]

/-- ERR packets: accepted are exactly the packets of the protocol with a text as message and, in protocol 4.1, a
state that is five bytes of text; what is reported is what they say. -/
theorem C73_error (caps : UInt32) (bs : Bytes) (code : UInt16) (state : Option Bytes) (msg : Str) :
    runP (ErrPacket.deserialize caps) bs = .ok (.error code state msg) ↔
      bs = Spec.errPacket code.toNat state msg ∧
      Spec.stateFor (hasFlag32 caps Cap.PROTOCOL_41) state ∧
      (code = 0xFFFF → hasFlag32 caps Cap.PROGRESS_OBSOLETE = false) := by
  rw [errPacket_ends caps bs]
  constructor
  · rintro ⟨code', rest, rfl, h⟩
    by_cases hc : code' = 0xFFFF ∧ hasFlag32 caps Cap.PROGRESS_OBSOLETE
    · rw [if_pos hc] at h
      obtain ⟨n, stage, maxStage, progress, l, info, tail, h2, _⟩ := h
      cases h2
    · rw [if_neg hc] at h
      obtain ⟨state', msg', h2, h3, rfl⟩ := h
      cases h2
      refine ⟨by simp [Spec.errPacket], h3, fun e => ?_⟩
      cases hb : hasFlag32 caps Cap.PROGRESS_OBSOLETE with
      | false => rfl
      | true => exact absurd ⟨e, hb⟩ hc
  · rintro ⟨rfl, h, hc⟩
    refine ⟨code, Spec.errState state ++ utf8 msg, by simp [Spec.errPacket], ?_⟩
    rw [if_neg (fun e => by rw [hc e.1] at e; exact absurd e.2 (by decide))]
    exact ⟨state, msg, rfl, h, rfl⟩

/-- Progress reports: only where they were negotiated, with the code 0xFFFF. -/
theorem C73_progress (caps : UInt32) (bs : Bytes) (stage maxStage : UInt8) (progress : UInt32) (info : Bytes) :
    runP (ErrPacket.deserialize caps) bs = .ok (.progress stage maxStage progress info) ↔
      hasFlag32 caps Cap.PROGRESS_OBSOLETE = true ∧ progress.toNat < 2 ^ 24 ∧ info.length < 2 ^ 64 ∧
      ∃ n l rest, Spec.IntForm info.length l ∧
        bs = [0xFF, 0xFF, 0xFF] ++ Spec.progressTail n stage maxStage progress l info ++ rest := by
  have e : ([0xFF] : Bytes) ++ Spec.le 2 (0xFFFF : UInt16).toNat = [0xFF, 0xFF, 0xFF] := by decide
  rw [errPacket_ends caps bs]
  constructor
  · rintro ⟨code', rest, rfl, h⟩
    by_cases hc : code' = 0xFFFF ∧ hasFlag32 caps Cap.PROGRESS_OBSOLETE
    · rw [if_pos hc] at h
      obtain ⟨n, stage, maxStage, progress, l, info, tail, h2, hp, hi, hl, rfl⟩ := h
      cases h2
      rw [hc.1, e]
      exact ⟨hc.2, hp, hi, n, l, tail, hl, by simp⟩
    · rw [if_neg hc] at h
      obtain ⟨state', msg', h2, _⟩ := h
      cases h2
  · rintro ⟨hf, hp, hi, n, l, rest, hl, rfl⟩
    refine ⟨0xFFFF, Spec.progressTail n stage maxStage progress l info ++ rest, by rw [e]; simp, ?_⟩
    rw [if_pos ⟨rfl, hf⟩]
    exact ⟨n, stage, maxStage, progress, l, info, rest, rfl, hp, hi, hl, rfl⟩

/-- The answer to COM_STMT_PREPARE. -/
theorem C73_prepared (bs : Bytes) (st : Stmt) :
    runP Stmt.deserialize bs = .ok st ↔
      ∃ h f rest, bs = [h] ++ Spec.le 4 st.id.toNat ++ Spec.le 2 st.columnsLen.toNat ++
        Spec.le 2 st.paramsLen.toNat ++ [f] ++ Spec.le 2 st.warningCount.toNat ++ rest := by
  have hr : Decodes Stmt.deserialize fun st b => ∃ h f, b = [h] ++ Spec.le 4 st.id.toNat ++
      Spec.le 2 st.columnsLen.toNat ++ Spec.le 2 st.paramsLen.toNat ++ [f] ++
      Spec.le 2 st.warningCount.toNat := by
    unfold Stmt.deserialize
    refine From.checkLen (n := 12) ?_ ?_
    · refine ((Decodes.skip 12 1 (by omega)).bind (k := 1) (fun _ _ h => h) fun _ =>
        (Decodes.eatU32.from' 11).bind (k := 4) (fun _ _ h => by rw [h, le_length]) fun id =>
        (Decodes.eatU16.from' 7).bind (k := 2) (fun _ _ h => by rw [h, le_length]) fun co =>
        (Decodes.eatU16.from' 5).bind (k := 2) (fun _ _ h => by rw [h, le_length]) fun pa =>
        (Decodes.skip 3 1 (by omega)).bind (k := 1) (fun _ _ h => h) fun _ =>
        (Decodes.eatU16.from' 2).bind (k := 2) (fun _ _ h => by rw [h, le_length]) fun wa =>
        (Decodes.pure' _).from' 0).of_iff fun st b => ?_
      constructor
      · rintro ⟨_, b1, _, h1, ⟨id, _, _, rfl, ⟨co, _, _, rfl, ⟨pa, _, _, rfl, ⟨_, b2, _, h2, ⟨wa, _, _, rfl,
          ⟨rfl, rfl⟩, rfl⟩, rfl⟩, rfl⟩, rfl⟩, rfl⟩, rfl⟩
        obtain ⟨h, rfl⟩ := List.length_eq_one_iff.1 h1
        obtain ⟨f, rfl⟩ := List.length_eq_one_iff.1 h2
        exact ⟨h, f, by simp⟩
      · rintro ⟨h, f, rfl⟩
        exact ⟨(), [h], _, rfl, ⟨st.id, _, _, rfl, ⟨st.columnsLen, _, _, rfl, ⟨st.paramsLen, _, _, rfl,
          ⟨(), [f], _, rfl, ⟨st.warningCount, _, _, rfl, ⟨rfl, rfl⟩, rfl⟩, rfl⟩, rfl⟩, rfl⟩, rfl⟩, by simp⟩
    · rintro st b ⟨h, f, rfl⟩
      simp [le_length]
  rw [hr.run]
  constructor
  · rintro ⟨b, r, ⟨h, f, rfl⟩, rfl⟩
    exact ⟨h, f, r, rfl⟩
  · rintro ⟨h, f, r, rfl⟩
    exact ⟨_, r, ⟨h, f, rfl⟩, rfl⟩

theorem ofByte_iff (b : UInt8) (t : ColumnType) : ColumnType.ofByte b = .ok t ↔ b = t.toByte := by
  constructor
  · have hall : ∀ n : Fin 256, (match ColumnType.ofByte (UInt8.ofNat n.val) with
        | .ok t => decide (UInt8.ofNat n.val = t.toByte)
        | _ => true) = true := by decide +kernel
    intro h
    have := hall ⟨b.toNat, b.toNat_lt⟩
    dsimp only at this
    rw [UInt8.ofNat_toNat, h] at this
    exact of_decide_eq_true this
  · rintro rfl
    exact ofByte_toByte t

/-- Column definitions: the catalog `def`, five strings, the number 12 and the twelve bytes it announces, of which
the last two are not looked at. -/
theorem C73_column (bs : Bytes) (d : ColumnDef) :
    runP ColumnDef.deserialize bs = .ok d ↔
      (∀ s ∈ [d.db, d.table, d.orgTable, d.name, d.orgName], (utf8 s).length < 256) ∧
      ∃ f1 f2 rest, bs = Spec.str8 "def".toList ++ Spec.str8 d.db ++ Spec.str8 d.table ++ Spec.str8 d.orgTable ++
        Spec.str8 d.name ++ Spec.str8 d.orgName ++ Spec.columnTail d f1 f2 ++ rest := by
  have hr : Decodes ColumnDef.deserialize fun d b =>
      (∀ s ∈ [d.db, d.table, d.orgTable, d.name, d.orgName], (utf8 s).length < 256) ∧
      d.flags &&& ~~~ColFlag.ALL = 0 ∧
      ∃ f1 f2, b = Spec.str8 "def".toList ++ Spec.str8 d.db ++ Spec.str8 d.table ++ Spec.str8 d.orgTable ++
        Spec.str8 d.name ++ Spec.str8 d.orgName ++ Spec.columnTail d f1 f2 := by
    unfold ColumnDef.deserialize
    refine (u8Slice_reads.bind fun cat => Decodes.ite (cat ≠ [0x64, 0x65, 0x66]) (Decodes.getFail _)
      (u8Str_reads.bind fun db => u8Str_reads.bind fun table => u8Str_reads.bind fun orgTable =>
       u8Str_reads.bind fun name => u8Str_reads.bind fun orgName =>
       (From.checkLen (n := 13) (G := fun d b => d.db = db ∧ d.table = table ∧ d.orgTable = orgTable ∧
        d.name = name ∧ d.orgName = orgName ∧ d.flags &&& ~~~ColFlag.ALL = 0 ∧
        ∃ f1 f2, b = Spec.columnTail d f1 f2) ?_ ?_))).of_iff fun d b => ?_
    · refine ((Decodes.eatU8.from' 13).bind (k := 1) (fun _ _ h => by rw [h]; rfl) fun fixed =>
        From.ite (fixed ≠ 12) ((Decodes.fail _).from' 12)
        ((Decodes.eatU16.from' 12).bind (k := 2) (fun _ _ h => by rw [h, le_length]) fun charset =>
        (Decodes.eatU32.from' 10).bind (k := 4) (fun _ _ h => by rw [h, le_length]) fun length =>
        (Decodes.eatU8.from' 6).bind (k := 1) (fun _ _ h => by rw [h]; rfl) fun tb =>
        ((Decodes.ofOut _).from' 5).bind (k := 0) (fun _ _ h => by rw [h.2]; rfl) fun type =>
        (Decodes.eatU16.from' 5).bind (k := 2) (fun _ _ h => by rw [h, le_length]) fun fb =>
        ((Decodes.ofOut _).from' 3).bind (k := 0) (fun _ _ h => by rw [h.2]; rfl) fun flags =>
        (Decodes.eatU8.from' 3).bind (k := 1) (fun _ _ h => by rw [h]; rfl) fun decimals =>
        (Decodes.skip 2 2 (by omega)).bind (k := 2) (fun _ _ h => h) fun _ =>
        (Decodes.pure' _).from' 0)).of_iff fun d b => ?_
      constructor
      · rintro ⟨fixed, _, _, rfl, ⟨_, hf⟩ | ⟨hfix, charset, _, _, rfl, ⟨length, _, _, rfl, ⟨tb, _, _, rfl,
          ⟨type, _, _, ⟨htype, rfl⟩, ⟨fb, _, _, rfl, ⟨flags, _, _, ⟨hflags, rfl⟩, ⟨decimals, _, _, rfl,
          ⟨_, b2, _, h2, ⟨rfl, rfl⟩, rfl⟩, rfl⟩, rfl⟩, rfl⟩, rfl⟩, rfl⟩, rfl⟩, rfl⟩, rfl⟩
        · exact hf.elim
        · have e12 : fixed = 12 := Decidable.not_not.1 hfix
          subst e12
          obtain ⟨f1, f2, rfl⟩ := List.length_eq_two.1 h2
          have ht : ColumnType.ofByte tb = .ok type := by
            cases h : ColumnType.ofByte tb with
            | ok t => rw [h] at htype; cases htype; rfl
            | err e => rw [h] at htype; cases htype
            | panic => rw [h] at htype; cases htype
          have := (ofByte_iff tb type).1 ht
          subst this
          unfold colFlagTryFrom at hflags
          split at hflags
          · rename_i hb
            cases hflags
            exact ⟨rfl, rfl, rfl, rfl, rfl, hb, f1, f2, by simp [Spec.columnTail]⟩
          · cases hflags
      · rintro ⟨rfl, rfl, rfl, rfl, rfl, hb, f1, f2, rfl⟩
        refine ⟨12, _, _, rfl, Or.inr ⟨by decide, d.charset, _, _, rfl, ⟨d.length, _, _, rfl, ⟨d.type.toByte, _, _, rfl,
          ⟨d.type, _, _, ⟨by rw [ofByte_toByte]; rfl, rfl⟩, ⟨d.flags, _, _, rfl, ⟨d.flags, _, _,
          ⟨by unfold colFlagTryFrom; rw [if_pos hb]; rfl, rfl⟩, ⟨d.decimals, _, _, rfl,
          ⟨(), [f1, f2], _, rfl, ⟨rfl, rfl⟩, rfl⟩, rfl⟩, rfl⟩, rfl⟩, rfl⟩, rfl⟩, rfl⟩, rfl⟩, by simp [Spec.columnTail]⟩
    · rintro d b ⟨_, _, _, _, _, _, f1, f2, rfl⟩
      simp [Spec.columnTail, le_length]
    · have ed : Spec.str8 "def".toList = [3, 0x64, 0x65, 0x66] := by decide +kernel
      rw [ed]
      constructor
      · rintro ⟨cat, _, _, ⟨hc, rfl⟩, ⟨_, hf⟩ | ⟨hcat, db, _, _, ⟨h1, rfl⟩, ⟨table, _, _, ⟨h2, rfl⟩,
          ⟨orgTable, _, _, ⟨h3, rfl⟩, ⟨name, _, _, ⟨h4, rfl⟩, ⟨orgName, _, _, ⟨h5, rfl⟩,
          ⟨rfl, rfl, rfl, rfl, rfl, hb, f1, f2, rfl⟩, rfl⟩, rfl⟩, rfl⟩, rfl⟩, rfl⟩, rfl⟩
        · exact hf.elim
        · have := Decidable.not_not.1 hcat
          subst this
          refine ⟨?_, hb, f1, f2, by simp⟩
          intro s hs
          simp only [List.mem_cons, List.not_mem_nil, or_false] at hs
          rcases hs with rfl | rfl | rfl | rfl | rfl <;> assumption
      · rintro ⟨hs, hb, f1, f2, rfl⟩
        refine ⟨[0x64, 0x65, 0x66], _, _, ⟨by decide, rfl⟩, Or.inr ⟨by decide, d.db, _, _, ⟨hs _ (by simp), rfl⟩,
          ⟨d.table, _, _, ⟨hs _ (by simp), rfl⟩, ⟨d.orgTable, _, _, ⟨hs _ (by simp), rfl⟩,
          ⟨d.name, _, _, ⟨hs _ (by simp), rfl⟩, ⟨d.orgName, _, _, ⟨hs _ (by simp), rfl⟩,
          ⟨rfl, rfl, rfl, rfl, rfl, hb, f1, f2, rfl⟩, rfl⟩, rfl⟩, rfl⟩, rfl⟩, rfl⟩, by simp⟩
  rw [hr.run]
  constructor
  · rintro ⟨b, r, ⟨h1, _, f1, f2, rfl⟩, rfl⟩
    exact ⟨h1, f1, f2, r, rfl⟩
  · rintro ⟨h1, f1, f2, r, rfl⟩
    have hall : (~~~ColFlag.ALL) = 0 := by decide
    exact ⟨_, r, ⟨h1, by rw [hall, UInt16.and_zero], f1, f2, rfl⟩, rfl⟩

theorem lenencStr_reads : Decodes P.checkedEatLenencStr fun y b =>
    ∃ l, (utf8 y).length < 2 ^ 64 ∧ Spec.IntForm (utf8 y).length l ∧ b = l ++ utf8 y := by
  intro s x s'
  unfold P.checkedEatLenencStr
  rw [SM.bind_eq_ok]
  constructor
  · rintro ⟨a, s1, h1, h2⟩
    obtain ⟨b, ⟨l, hb, hl, rfl⟩, rfl⟩ := (lenencSlice_reads _ _ _).1 h1
    cases hu : fromUtf8 a with
    | none => rw [hu] at h2; cases h2
    | some t =>
      rw [hu] at h2
      cases h2
      have := utf8_of_fromUtf8 hu
      subst this
      exact ⟨_, ⟨l, hb, hl, rfl⟩, rfl⟩
  · rintro ⟨b, ⟨l, hb, hl, rfl⟩, rfl⟩
    refine ⟨utf8 x, s', (lenencSlice_reads _ _ _).2 ⟨_, ⟨l, hb, hl, rfl⟩, rfl⟩, ?_⟩
    rw [fromUtf8_utf8]
    rfl

theorem optStr_total (s : Bytes) : ∃ o s', optStr s = (.ok o, s') ∧ ∀ m, o = some m ↔ Spec.HasText s m := by
  unfold optStr
  cases h : P.checkedEatLenencStr s with
  | mk o s' =>
    cases o with
    | ok x =>
      rw [SM.bind_of_ok (attempt_ok h)]
      obtain ⟨b, ⟨l, h1, h2, rfl⟩, rfl⟩ := (lenencStr_reads _ _ _).1 h
      refine ⟨_, _, rfl, fun m => ?_⟩
      constructor
      · intro e
        by_cases hx : x = []
        · rw [if_pos hx] at e
          cases e
        · rw [if_neg hx] at e
          cases e
          exact ⟨hx, l, s', h1, h2, rfl⟩
      · rintro ⟨hm, l', t, g1, g2, e⟩
        have h' := (lenencStr_reads (l ++ utf8 x ++ s') m t).2 ⟨l' ++ utf8 m, ⟨l', g1, g2, rfl⟩, e⟩
        rw [h] at h'
        cases h'
        rw [if_neg hm]
    | err e =>
      rw [SM.bind_of_ok (attempt_err h)]
      refine ⟨_, _, rfl, fun m => ?_⟩
      constructor
      · intro e
        cases e
      · rintro ⟨hm, l', t, g1, g2, rfl⟩
        have h' := (lenencStr_reads _ m t).2 ⟨l' ++ utf8 m, ⟨l', g1, g2, rfl⟩, rfl⟩
        rw [h] at h'
        cases h'
    | panic => exact absurd (congrArg Prod.fst h) ((Lens.checkedEatLenencStr (n := 0) s (Nat.zero_le _)).1)

/-- the part of `readTail` that cannot fail. -/
def OkPacket.readTexts (caps : UInt32) (affected lastId : UInt64) (status warnings : UInt16) : P OkPacket := do
  let message ← optStr
  let info ←
    if hasFlag32 caps Cap.SESSION_TRACK && hasFlag16 status Status.SESSION_STATE_CHANGED then optStr
    else pure none
  pure { affectedRows := affected, lastInsertId := lastId, status := status, warnings := warnings,
         message := message, sessionStateInfo := info }

theorem readTexts_total (caps : UInt32) (a l : UInt64) (st w : UInt16) (s : Bytes) :
    ∃ ok, runP (OkPacket.readTexts caps a l st w) s = .ok ok ∧ ok.affectedRows = a ∧ ok.lastInsertId = l ∧
      ok.status = st ∧ ok.warnings = w ∧ ∀ m, ok.message = some m ↔ Spec.HasText s m := by
  obtain ⟨o, s', h, hm⟩ := optStr_total s
  unfold OkPacket.readTexts runP
  rw [SM.bind_of_ok h]
  cases hasFlag32 caps Cap.SESSION_TRACK && hasFlag16 st Status.SESSION_STATE_CHANGED with
  | false => exact ⟨_, rfl, rfl, rfl, rfl, rfl, hm⟩
  | true =>
    obtain ⟨o2, s2, h2, _⟩ := optStr_total s'
    rw [if_pos rfl]
    dsimp only
    rw [SM.bind_of_ok h2]
    exact ⟨_, rfl, rfl, rfl, rfl, rfl, hm⟩

/-- OK packets: any length-encoded numbers, status and warnings; whatever follows does not make them fail.  The
status bit 0x0004 is left out. -/
theorem C73_ok (caps : UInt32) (bs : Bytes) (affected lastId : UInt64) (status warnings : UInt16)
    (message : Option Str) :
    (∃ ok, runP (OkPacket.readOk caps) bs = .ok ok ∧ ok.affectedRows = affected ∧ ok.lastInsertId = lastId ∧
        ok.status = status ∧ ok.warnings = warnings ∧ ok.message = message) ↔
      ∃ a l s rest, Spec.IntForm affected.toNat a ∧ Spec.IntForm lastId.toNat l ∧
        status = s &&& 0xFFFB ∧
        bs = [0] ++ a ++ l ++ Spec.le 2 s.toNat ++ Spec.le 2 warnings.toNat ++ rest ∧
        ∀ m, message = some m ↔ Spec.HasText rest m := by
  have hr : Ends (OkPacket.readOk caps) fun y bs => ∃ affected lastId warnings a l s rest,
      Spec.IntForm (UInt64.toNat affected) a ∧ Spec.IntForm (UInt64.toNat lastId) l ∧
      bs = [0] ++ a ++ l ++ Spec.le 2 (UInt16.toNat s) ++ Spec.le 2 (UInt16.toNat warnings) ++ rest ∧
      runP (OkPacket.readTexts caps affected lastId (statusTruncate s) warnings) rest = .ok y := by
    unfold OkPacket.readOk OkPacket.readTail
    refine (Decodes.bindEnds Decodes.checkedEatU8 fun h => Ends.ite (h ≠ 0) (Ends.getFail _)
      (Decodes.bindEnds lenencInt_reads fun a => Decodes.bindEnds lenencInt_reads fun l =>
       Decodes.bindEnds Decodes.checkedEatU16 fun st => Decodes.bindEnds Decodes.checkedEatU16 fun w =>
       (fun s x => Iff.rfl : Ends (OkPacket.readTexts caps a l (statusTruncate st) w) _))).of_iff fun y bs => ?_
    constructor
    · rintro ⟨h, _, _, rfl, ⟨_, hf⟩ | ⟨h0, affected, a, _, ha, ⟨lastId, l, _, hl, ⟨s, _, _, rfl, ⟨w, _, rest, rfl, hx,
        rfl⟩, rfl⟩, rfl⟩, rfl⟩, rfl⟩
      · exact hf.elim
      · have := Decidable.not_not.1 h0
        subst this
        exact ⟨affected, lastId, w, a, l, s, rest, ha, hl, by simp, hx⟩
    · rintro ⟨affected, lastId, w, a, l, s, rest, ha, hl, rfl, hx⟩
      exact ⟨0, _, _, rfl, Or.inr ⟨by decide, affected, a, _, ha, ⟨lastId, l, _, hl, ⟨s, _, _, rfl, ⟨w, _, rest, rfl, hx,
        rfl⟩, rfl⟩, rfl⟩, rfl⟩, by simp⟩
  constructor
  · rintro ⟨ok, h, rfl, rfl, rfl, rfl, rfl⟩
    obtain ⟨affected, lastId, w, a, l, s, rest, ha, hl, rfl, hx⟩ := (hr _ _).1 h
    obtain ⟨ok', h', rfl, rfl, e1, rfl, hm⟩ := readTexts_total caps affected lastId (statusTruncate s) w rest
    rw [hx] at h'
    cases h'
    exact ⟨a, l, s, rest, ha, hl, e1, rfl, hm⟩
  · rintro ⟨a, l, s, rest, ha, hl, rfl, rfl, hm⟩
    obtain ⟨ok, h, e1, e2, e3, e4, e5⟩ := readTexts_total caps affected lastId (statusTruncate s) warnings rest
    refine ⟨ok, (hr _ _).2 ⟨affected, lastId, warnings, a, l, s, rest, ha, hl, rfl, h⟩, e1, e2, e3, e4, ?_⟩
    cases hmsg : ok.message with
    | some m => exact ((hm m).2 ((e5 m).1 hmsg)).symm
    | none =>
      cases hmsg2 : message with
      | none => rfl
      | some m =>
        have := (e5 m).2 ((hm m).1 hmsg2)
        rw [hmsg] at this
        cases this

theorem nullSlice_cases (s : Bytes) : ∃ a, (0 : UInt8) ∉ a ∧
    ((s = a ∧ P.eatNullSlice s = (.ok a, [])) ∨ ∃ r, s = a ++ 0 :: r ∧ P.eatNullSlice s = (.ok a, r)) := by
  by_cases h0 : (0 : UInt8) ∈ s
  · obtain ⟨a, r, rfl, ha⟩ := List.eq_append_cons_of_mem h0
    exact ⟨a, ha, Or.inr ⟨r, rfl, eatNullSlice_append a r fun b hb e => ha (e ▸ hb)⟩⟩
  · refine ⟨s, h0, Or.inl ⟨rfl, ?_⟩⟩
    have : s.findIdx (· == 0) = s.length := by
      rw [List.findIdx_eq_length]
      intro b hb
      simpa using fun e : b = 0 => h0 (e ▸ hb)
    unfold P.eatNullSlice
    dsimp only
    rw [this, if_neg (by omega)]

theorem stripNul_iff (t d : Bytes) : stripNul t = d ↔ Spec.Stripped t d := by
  unfold stripNul Spec.Stripped
  constructor
  · intro h
    split at h
    · rename_i h0
      subst h
      left
      have hne : t ≠ [] := by rintro rfl; cases h0
      rw [List.getLast?_eq_getLast_of_ne_nil hne] at h0
      injection h0 with h0
      rw [← h0, List.dropLast_append_getLast]
    · rename_i h0
      subst h
      exact Or.inr ⟨rfl, h0⟩
  · rintro (rfl | ⟨rfl, h⟩)
    · rw [if_pos (by simp)]
      simp
    · rw [if_neg h]

theorem name_noNul (p : AuthPlugin) : (0 : UInt8) ∉ p.name := by
  cases p <;> decide +kernel

theorem stripNul_noNul {a : Bytes} (h : (0 : UInt8) ∉ a) : stripNul a = a := by
  unfold stripNul
  rw [if_neg]
  intro e
  exact h (List.mem_of_getLast? e)

theorem fromBytes_iff (b : Bytes) (p : AuthPlugin) :
    AuthPlugin.fromBytes b = .ok p ↔ stripNul b = p.name := by
  have d1 : AuthPlugin.clear.name ≠ AuthPlugin.native.name := by decide +kernel
  have d2 : AuthPlugin.clear.name ≠ AuthPlugin.sha2.name := by decide +kernel
  have d3 : AuthPlugin.native.name ≠ AuthPlugin.sha2.name := by decide +kernel
  unfold AuthPlugin.fromBytes
  dsimp only
  constructor
  · intro h
    split at h
    · cases h; assumption
    · split at h
      · cases h; assumption
      · split at h
        · cases h; assumption
        · cases h
  · intro h
    rw [h]
    cases p with
    | clear => rw [if_pos rfl]
    | native => rw [if_neg d1.symm, if_pos rfl]
    | sha2 => rw [if_neg d2.symm, if_neg d3.symm, if_pos rfl]

/-- Requests to switch: any first byte, the name of one of the three plugins, ended by a zero byte or by the packet,
then the data. -/
theorem C73_switch (bs : Bytes) (p : AuthPlugin) (d : Bytes) :
    runP AuthSwitch.deserialize bs = .ok ⟨p, d⟩ ↔
      ∃ h, (bs = h :: Spec.pluginName p ∧ d = []) ∨
        ∃ t, bs = h :: Spec.pluginName p ++ 0 :: t ∧ Spec.Stripped t d := by
  have hname : Spec.pluginName p = p.name := by cases p <;> decide +kernel
  rw [hname]
  have hrun : ∀ s : Bytes, ∀ a r, (0 : UInt8) ∉ a → P.eatNullSlice s = (.ok a, r) →
      (((do
        let plugin ← AuthPlugin.deserialize
        let data ← P.eatAll
        pure (AuthSwitch.mk plugin (stripNul data)) : P AuthSwitch) s).1 = .ok ⟨p, d⟩ ↔
      (a = p.name ∧ Spec.Stripped r d)) := by
    intro s a r ha h
    have hde : AuthPlugin.deserialize s = (AuthPlugin.fromBytes a, r) := by
      unfold AuthPlugin.deserialize
      rw [SM.bind_of_ok h]
      rfl
    cases hf : AuthPlugin.fromBytes a with
    | ok q =>
      rw [hf] at hde
      rw [SM.bind_of_ok hde]
      have hq := (fromBytes_iff a q).1 hf
      rw [stripNul_noNul ha] at hq
      have e : (P.eatAll >>= fun data => (pure (AuthSwitch.mk q (stripNul data)) : P AuthSwitch)) r =
          (.ok ⟨q, stripNul r⟩, []) := rfl
      rw [e, ← stripNul_iff]
      constructor
      · intro h
        cases h
        exact ⟨hq, rfl⟩
      · rintro ⟨h1, rfl⟩
        have : AuthPlugin.fromBytes a = .ok p := (fromBytes_iff a p).2 (by rw [stripNul_noNul ha]; exact h1)
        rw [hf] at this
        cases this
        rfl
    | err e =>
      rw [hf] at hde
      rw [SM.bind_of_err hde]
      constructor
      · intro h
        cases h
      · rintro ⟨h1, _⟩
        have : AuthPlugin.fromBytes a = .ok p := (fromBytes_iff a p).2 (by rw [stripNul_noNul ha]; exact h1)
        rw [hf] at this
        cases this
    | panic =>
      rw [hf] at hde
      rw [SM.bind_of_panic hde]
      constructor
      · intro h
        cases h
      · rintro ⟨h1, _⟩
        have : AuthPlugin.fromBytes a = .ok p := (fromBytes_iff a p).2 (by rw [stripNul_noNul ha]; exact h1)
        rw [hf] at this
        cases this
  have hskip : runP AuthSwitch.deserialize bs = ((do
        let plugin ← AuthPlugin.deserialize
        let data ← P.eatAll
        pure (AuthSwitch.mk plugin (stripNul data)) : P AuthSwitch) (bs.drop 1)).1 := by
    cases bs with
    | nil => rfl
    | cons x xs =>
      have : P.skip 1 (x :: xs) = (.ok (), xs) := by
        unfold P.skip
        simp
      unfold AuthSwitch.deserialize runP
      rw [SM.bind_of_ok this]
      rfl
  rw [hskip]
  have hne : p.name ≠ [] := by cases p <;> decide +kernel
  obtain ⟨a, ha, ⟨e, h⟩ | ⟨r, e, h⟩⟩ := nullSlice_cases (bs.drop 1)
  · rw [hrun _ a [] ha h]
    constructor
    · rintro ⟨rfl, hs⟩
      cases bs with
      | nil => exact absurd e.symm hne
      | cons x xs =>
        refine ⟨x, Or.inl ⟨by rw [← e]; rfl, ?_⟩⟩
        rcases hs with hs | ⟨hs, _⟩
        · cases d <;> cases hs
        · exact hs.symm
    · rintro ⟨x, ⟨rfl, rfl⟩ | ⟨t, rfl, _⟩⟩
      · exact ⟨e.symm, Or.inr ⟨rfl, by simp⟩⟩
      · refine absurd ?_ ha
        rw [← e]
        simp
  · rw [hrun _ a r ha h]
    constructor
    · rintro ⟨rfl, hs⟩
      cases bs with
      | nil => simp at e
      | cons x xs => exact ⟨x, Or.inr ⟨r, by rw [List.cons_append, ← e]; rfl, hs⟩⟩
    · rintro ⟨x, ⟨rfl, rfl⟩ | ⟨t, rfl, hs⟩⟩
      · refine absurd ?_ (name_noNul p)
        have e : p.name = a ++ 0 :: r := e
        rw [e]
        simp
      · have e : p.name ++ 0 :: t = a ++ 0 :: r := e
        have h2 := eatNullSlice_append p.name t fun b hb e => name_noNul p (e ▸ hb)
        have h3 := eatNullSlice_append a r fun b hb e => ha (e ▸ hb)
        rw [e, h3] at h2
        cases h2
        exact ⟨rfl, hs⟩

theorem noncePart2_reads (caps : UInt32) (dataLen : UInt8) : Decodes (Handshake.noncePart2 caps dataLen) fun y b =>
    y = b ∧ Spec.SecondPart (hasFlag32 caps Cap.SECURE_CONNECTION) dataLen b := by
  unfold Handshake.noncePart2
  refine (Decodes.ite _ ((Decodes.ofOut _).bind fun len => Decodes.checkedEat len) (Decodes.pure' _)).of_iff fun y b => ?_
  unfold Spec.SecondPart
  constructor
  · rintro (⟨h, len, _, _, ⟨hl, rfl⟩, ⟨h1, rfl⟩, rfl⟩ | ⟨h, rfl, rfl⟩)
    · rw [if_pos h]
      refine ⟨rfl, ?_⟩
      rw [h1]
      unfold noncePart2Len at hl
      dsimp only at hl
      split at hl
      · cases hl
        exact Or.inl ⟨by assumption, rfl⟩
      · split at hl
        · cases hl
        · cases hl
          exact Or.inr ⟨by omega, rfl⟩
    · rw [if_neg h]
      exact ⟨rfl, rfl⟩
  · rintro ⟨rfl, h2⟩
    by_cases h : hasFlag32 caps Cap.SECURE_CONNECTION = true
    · rw [if_pos h] at h2
      refine Or.inl ⟨h, y.length, [], y, ⟨?_, rfl⟩, ⟨rfl, rfl⟩, rfl⟩
      unfold noncePart2Len
      dsimp only
      rcases h2 with ⟨a, e⟩ | ⟨a, e⟩
      · rw [if_pos a, e]
      · rw [if_neg (by omega), if_neg (by omega), e]
    · rw [if_neg h] at h2
      exact Or.inr ⟨h, h2, h2⟩

theorem plugin_ends {α : Type} (caps : UInt32) (f : Option AuthPlugin → α) :
    Ends (Handshake.plugin caps >>= fun p => pure (f p)) fun y b =>
      ∃ p, y = f p ∧ Spec.PluginAtEnd (hasFlag32 caps Cap.PLUGIN_AUTH) p b := by
  intro s y
  have hname : ∀ p, Spec.pluginName p = p.name := by intro p; cases p <;> decide +kernel
  unfold Handshake.plugin Spec.PluginAtEnd runP
  by_cases h : hasFlag32 caps Cap.PLUGIN_AUTH = true
  · simp only [if_pos h, hname]
    cases hf : AuthPlugin.fromBytes s with
    | ok q =>
      have e : (P.eatAll >>= fun name => SM.ofOut (AuthPlugin.fromBytes name) >>= fun p =>
          (pure (some p) : P (Option AuthPlugin))) s = (.ok (some q), []) := by
        show (SM.ofOut (AuthPlugin.fromBytes s) >>= fun p => (pure (some p) : P (Option AuthPlugin))) [] = _
        rw [hf]
        rfl
      rw [SM.bind_of_ok e]
      have hq := (fromBytes_iff s q).1 hf
      constructor
      · intro h
        cases h
        exact ⟨_, rfl, q, rfl, (stripNul_iff _ _).1 hq⟩
      · rintro ⟨_, rfl, q', rfl, hs⟩
        have := (fromBytes_iff s q').2 ((stripNul_iff _ _).2 hs)
        rw [hf] at this
        cases this
        rfl
    | err e' =>
      have e : (P.eatAll >>= fun name => SM.ofOut (AuthPlugin.fromBytes name) >>= fun p =>
          (pure (some p) : P (Option AuthPlugin))) s = (.err e', []) := by
        show (SM.ofOut (AuthPlugin.fromBytes s) >>= fun p => (pure (some p) : P (Option AuthPlugin))) [] = _
        rw [hf]
        rfl
      rw [SM.bind_of_err e]
      constructor
      · intro h
        cases h
      · rintro ⟨_, rfl, q', rfl, hs⟩
        have := (fromBytes_iff s q').2 ((stripNul_iff _ _).2 hs)
        rw [hf] at this
        cases this
    | panic =>
      have e : (P.eatAll >>= fun name => SM.ofOut (AuthPlugin.fromBytes name) >>= fun p =>
          (pure (some p) : P (Option AuthPlugin))) s = (.panic, []) := by
        show (SM.ofOut (AuthPlugin.fromBytes s) >>= fun p => (pure (some p) : P (Option AuthPlugin))) [] = _
        rw [hf]
        rfl
      rw [SM.bind_of_panic e]
      constructor
      · intro h
        cases h
      · rintro ⟨_, rfl, q', rfl, hs⟩
        have := (fromBytes_iff s q').2 ((stripNul_iff _ _).2 hs)
        rw [hf] at this
        cases this
  · simp only [if_neg h]
    constructor
    · intro h
      cases h
      exact ⟨none, rfl, rfl⟩
    · rintro ⟨_, rfl, rfl⟩
      rfl

theorem nullStr_ends {α : Type} {f : Str → P α} {H : Str → α → Bytes → Prop} (hf : ∀ a, Ends (f a) (H a))
    (hnil : ∀ a y, ¬ H a y []) :
    Ends (P.eatNullStr >>= f) fun y s => ∃ a r, (0 : UInt8) ∉ utf8 a ∧ s = utf8 a ++ [0] ++ r ∧ H a y r := by
  intro s y
  have hstep : ∀ b r, P.eatNullSlice s = (.ok b, r) → (runP (P.eatNullStr >>= f) s = .ok y ↔
      ∃ a, b = utf8 a ∧ H a y r) := by
    intro b r h
    unfold runP
    cases hu : fromUtf8 b with
    | none =>
      have e : P.eatNullStr s = (.err (.parse .utf8), r) := by
        unfold P.eatNullStr
        rw [SM.bind_of_ok h, hu]
        rfl
      rw [SM.bind_of_err e]
      constructor
      · intro h
        cases h
      · rintro ⟨a, rfl, _⟩
        rw [fromUtf8_utf8] at hu
        cases hu
    | some t =>
      have e : P.eatNullStr s = (.ok t, r) := by
        unfold P.eatNullStr
        rw [SM.bind_of_ok h, hu]
        rfl
      rw [SM.bind_of_ok e]
      have := utf8_of_fromUtf8 hu
      subst this
      rw [show (f t r).1 = runP (f t) r from rfl, hf t r y]
      constructor
      · intro h
        exact ⟨t, rfl, h⟩
      · rintro ⟨a, e, h⟩
        rw [e, fromUtf8_utf8] at hu
        cases hu
        exact h
  obtain ⟨a, ha, ⟨rfl, h⟩ | ⟨r, rfl, h⟩⟩ := nullSlice_cases s
  · rw [hstep _ _ h]
    constructor
    · rintro ⟨a, _, h⟩
      exact absurd h (hnil a y)
    · rintro ⟨a, r, _, rfl, _⟩
      refine absurd ?_ ha
      simp
  · rw [hstep _ _ h]
    constructor
    · rintro ⟨b, rfl, h'⟩
      exact ⟨b, r, ha, by simp, h'⟩
    · rintro ⟨b, r', hb, e, h'⟩
      have h2 := eatNullSlice_append (utf8 b) r' fun x hx e => hb (e ▸ hx)
      rw [show utf8 b ++ 0 :: r' = utf8 b ++ [0] ++ r' by simp, ← e, h] at h2
      cases h2
      exact ⟨b, rfl, h'⟩

theorem statusTryFrom_iff (w x : UInt16) : statusTryFrom w = .ok x ↔ w = x ∧ w.toNat.testBit 2 = false := by
  constructor
  · intro h
    unfold statusTryFrom at h
    split at h
    · rename_i h0
      cases h
      refine ⟨rfl, ?_⟩
      have e : (~~~Status.ALL) = 4 := by decide
      rw [e] at h0
      have h0 := congrArg UInt16.toNat h0
      rw [UInt16.toNat_and, show (4 : UInt16).toNat = 2 ^ 2 from rfl, nat_and_two_pow] at h0
      cases hb : w.toNat.testBit 2 with
      | false => rfl
      | true => rw [hb] at h0; cases h0
    · cases h
  · rintro ⟨rfl, h⟩
    exact status_ok w h

theorem caps_join (c1 c2 : UInt16) (w : UInt32)
    (h : UInt32.ofNat c1.toNat ||| UInt32.ofNat c2.toNat <<< 16 = w) :
    c1.toNat = w.toNat % 65536 ∧ c2.toNat = w.toNat / 65536 := by
  have h1 := c1.toNat_lt
  have h2 := c2.toNat_lt
  subst h
  rw [UInt32.toNat_or, UInt32.toNat_shiftLeft, uint32_toNat_ofNat_of_lt (by omega),
    uint32_toNat_ofNat_of_lt (by omega)]
  have h16 : (16 : UInt32).toNat % 32 = 16 := rfl
  rw [h16, Nat.mod_eq_of_lt (a := c2.toNat <<< 16) (by rw [Nat.shiftLeft_eq]; omega),
    Nat.or_comm, ← Nat.shiftLeft_add_eq_or_of_lt (by omega), Nat.shiftLeft_eq]
  omega

theorem resize20_eq (p1 p2 : Bytes) (h : p1.length = 8) :
    resize20 (p1 ++ p2) = (p1 ++ p2 ++ List.replicate 12 0).take 20 := by
  unfold resize20
  rw [List.take_append (l₁ := p1 ++ p2), List.take_replicate, List.length_append, h]
  congr 2
  omega

/-- Greetings: taken is what the form says, whatever the filler bytes are. -/
theorem C73_greeting (bs : Bytes) (h : Handshake) :
    runP Handshake.deserialize bs = .ok h ↔ ∃ p1 p2 rest, Spec.GreetingForm h bs p1 p2 rest := by
  have hbody : ∀ version : UInt8, ∀ server : Str, Ends (do
      P.checkLen 31
      let connectionId ← P.eatU32
      let nonce1 ← P.eat 8
      P.skip 1
      let caps1 ← P.eatU16
      let collation ← P.eatU8
      let st ← P.eatU16
      let status ← SM.ofOut ((statusTryFrom st).mapErr fun e => .parse (.unknownBitflags e))
      let caps2 ← P.eatU16
      let dataLen ← P.eatU8
      P.skip 10
      let caps ← SM.ofOut ((capTryFrom (UInt32.ofNat caps1.toNat ||| UInt32.ofNat caps2.toNat <<< 16)).mapErr
        fun e => .parse (.unknownBitflags e))
      let nonce2 ← Handshake.noncePart2 caps dataLen
      let plugin ← Handshake.plugin caps
      pure
        { protocolVersion := version
          serverVersion := server
          connectionId := connectionId
          capabilities := caps
          collation := collation
          status := status
          authPluginDataLen := dataLen
          nonce := resize20 (nonce1 ++ nonce2)
          authPlugin := plugin }) fun (h : Handshake) b =>
      h.protocolVersion = version ∧ h.serverVersion = server ∧ ∃ p1 p2 rest f fill, p1.length = 8 ∧
        fill.length = 10 ∧ h.status.toNat.testBit 2 = false ∧
        Spec.SecondPart (h.capabilities.toNat.testBit Spec.bitSecure) h.authPluginDataLen p2 ∧
        h.nonce = resize20 (p1 ++ p2) ∧
        Spec.PluginAtEnd (h.capabilities.toNat.testBit Spec.bitPluginAuth) h.authPlugin rest ∧
        b = Spec.le 4 h.connectionId.toNat ++ p1 ++ [f] ++
          Spec.le 2 (h.capabilities.toNat % 65536) ++ [h.collation] ++ Spec.le 2 h.status.toNat ++
          Spec.le 2 (h.capabilities.toNat / 65536) ++ [h.authPluginDataLen] ++ fill ++ p2 ++ rest := by
    intro version server
    refine EndsFrom.checkLen (n := 31) ?_ ?_
    · refine ((Decodes.eatU32.from' 31).bindEnds (k := 4) (fun _ _ h => by rw [h, le_length]) fun id =>
        ((Decodes.eat 8).from' 27).bindEnds (k := 8) (fun _ _ h => h.1) fun n1 =>
        (Decodes.skip 19 1 (by omega)).bindEnds (k := 1) (fun _ _ h => h) fun _ =>
        (Decodes.eatU16.from' 18).bindEnds (k := 2) (fun _ _ h => by rw [h, le_length]) fun c1 =>
        (Decodes.eatU8.from' 16).bindEnds (k := 1) (fun _ _ h => by rw [h]; rfl) fun collation =>
        (Decodes.eatU16.from' 15).bindEnds (k := 2) (fun _ _ h => by rw [h, le_length]) fun st =>
        ((Decodes.ofOut _).from' 13).bindEnds (k := 0) (fun _ _ h => by rw [h.2]; rfl) fun status =>
        (Decodes.eatU16.from' 13).bindEnds (k := 2) (fun _ _ h => by rw [h, le_length]) fun c2 =>
        (Decodes.eatU8.from' 11).bindEnds (k := 1) (fun _ _ h => by rw [h]; rfl) fun dataLen =>
        (Decodes.skip 10 10 (by omega)).bindEnds (k := 10) (fun _ _ h => h) fun _ =>
        ((Decodes.ofOut _).bindEnds fun caps => (noncePart2_reads caps dataLen).bindEnds fun n2 =>
          plugin_ends caps _).from' 0).of_iff fun h b => ?_
      constructor
      · rintro ⟨id, _, _, rfl, ⟨n1, _, _, ⟨hn1, rfl⟩, ⟨_, b1, _, hb1, ⟨c1, _, _, rfl, ⟨collation, _, _, rfl,
          ⟨st, _, _, rfl, ⟨status, _, _, ⟨hst, rfl⟩, ⟨c2, _, _, rfl, ⟨dataLen, _, _, rfl, ⟨_, fill, _, hfill,
          ⟨caps, _, _, ⟨hcaps, rfl⟩, ⟨n2, _, rest, ⟨rfl, hn2⟩, ⟨plugin, rfl, hp⟩, rfl⟩, rfl⟩, rfl⟩, rfl⟩, rfl⟩, rfl⟩,
          rfl⟩, rfl⟩, rfl⟩, rfl⟩, rfl⟩, rfl⟩
        obtain ⟨f, rfl⟩ := List.length_eq_one_iff.1 hb1
        rw [cap_all] at hcaps
        have hcaps : UInt32.ofNat c1.toNat ||| UInt32.ofNat c2.toNat <<< 16 = caps := by
          injection hcaps
        obtain ⟨e1, e2⟩ := caps_join _ _ _ hcaps
        have hs : statusTryFrom st = .ok status := by
          cases h : statusTryFrom st with
          | ok t => rw [h] at hst; cases hst; rfl
          | err e => rw [h] at hst; cases hst
          | panic => rw [h] at hst; cases hst
        obtain ⟨rfl, hbit⟩ := (statusTryFrom_iff _ _).1 hs
        rw [hasFlag32_eq caps _ Spec.bitSecure rfl] at hn2
        rw [hasFlag32_eq caps _ Spec.bitPluginAuth rfl] at hp
        refine ⟨rfl, rfl, _, _, rest, f, fill, hn1, hfill, hbit, hn2, rfl, hp, ?_⟩
        dsimp only
        rw [← e1, ← e2]
        simp
      · rintro ⟨rfl, rfl, p1, p2, rest, f, fill, h1, hfill, hbit, h2, hnonce, hp, rfl⟩
        have hc := caps_halves h.capabilities
        have hlt := h.capabilities.toNat_lt
        have e1 : (UInt16.ofNat (h.capabilities.toNat % 65536)).toNat = h.capabilities.toNat % 65536 :=
          uint16_toNat_ofNat_of_lt (by omega)
        have e2 : (UInt16.ofNat (h.capabilities.toNat / 65536)).toNat = h.capabilities.toNat / 65536 :=
          uint16_toNat_ofNat_of_lt (by omega)
        rw [← hasFlag32_eq h.capabilities Cap.SECURE_CONNECTION Spec.bitSecure rfl] at h2
        rw [← hasFlag32_eq h.capabilities Cap.PLUGIN_AUTH Spec.bitPluginAuth rfl] at hp
        refine ⟨h.connectionId, _, _, rfl, ⟨p1, _, _, ⟨h1, rfl⟩, ⟨(), [f], _, rfl,
          ⟨UInt16.ofNat (h.capabilities.toNat % 65536), _, _, rfl, ⟨h.collation, _, _, rfl,
          ⟨h.status, _, _, rfl, ⟨h.status, _, _, ⟨by rw [status_ok _ hbit]; rfl, rfl⟩,
          ⟨UInt16.ofNat (h.capabilities.toNat / 65536), _, _, rfl, ⟨h.authPluginDataLen, _, _, rfl,
          ⟨(), fill, _, hfill, ⟨h.capabilities, _, _, ⟨by rw [cap_all, hc]; rfl, rfl⟩,
          ⟨p2, _, rest, ⟨rfl, h2⟩, ⟨h.authPlugin, ?_, hp⟩, rfl⟩, rfl⟩, rfl⟩, rfl⟩, rfl⟩, rfl⟩,
          rfl⟩, rfl⟩, rfl⟩, rfl⟩, rfl⟩, ?_⟩
        · rw [← hnonce]
        · rw [e1, e2]
          simp
    · rintro h b ⟨_, _, p1, p2, rest, f, fill, h1, hfill, _, _, _, _, rfl⟩
      simp [le_length, h1, hfill]
      omega
  have hr := Decodes.bindEnds Decodes.checkedEatU8 fun version =>
    nullStr_ends (hbody version) (by
      rintro server y ⟨_, _, p1, p2, rest, f, fill, h1, _, _, _, _, _, e⟩
      have := congrArg List.length e
      simp [le_length] at this)
  have hr' : Ends Handshake.deserialize _ := hr
  rw [hr' bs h]
  constructor
  · rintro ⟨_, _, _, rfl, ⟨_, r, hz, rfl, rfl, rfl, p1, p2, rest, f, fill, h1, hfill, hbit, h2, hnonce, hp, rfl⟩, rfl⟩
    exact ⟨p1, p2, rest, hz, h1, hbit, h2, by rw [hnonce, resize20_eq _ _ h1], hp, f, fill, hfill, by simp⟩
  · rintro ⟨p1, p2, rest, hz, h1, hbit, h2, hnonce, hp, f, fill, hfill, rfl⟩
    exact ⟨_, _, _, rfl, ⟨_, _, hz, rfl, rfl, rfl, p1, p2, rest, f, fill, h1, hfill, hbit, h2,
      by rw [hnonce, resize20_eq _ _ h1], hp, rfl⟩, by simp⟩

/-- The state of an error that was accepted is five bytes and text: `from_utf8_unchecked` (err.rs 53-57) and the cast
to an array of five (err.rs 90-95) are given what they need. -/
theorem C73_state (caps : UInt32) (bs : Bytes) (code : UInt16) (s : Bytes) (msg : Str)
    (h : runP (ErrPacket.deserialize caps) bs = .ok (.error code (some s) msg)) :
    s.length = 5 ∧ ∃ t : Str, utf8 t = s := by
  have h2 := ((C73_error caps bs code (some s) msg).1 h).2.1
  unfold Spec.stateFor at h2
  split at h2
  · obtain ⟨s', e, h3⟩ := h2
    cases e
    exact h3
  · cases h2

/-! ### Examples -/

/-- error 1062 with its state; without the marker it is no packet of protocol 4.1, and a state that is no text is
rejected. -/
theorem C73_example_error :
    runP (ErrPacket.deserialize 0x200) ([0xFF, 0x26, 0x04, 0x23] ++ ascii "23000" ++ ascii "Duplicate entry") =
      .ok (.error 1062 (some (ascii "23000")) "Duplicate entry".toList) ∧
    (runP (ErrPacket.deserialize 0x200) ([0xFF, 0x26, 0x04] ++ ascii "23000") = .err (.invalidPacket (ascii "3000"))) ∧
    (runP (ErrPacket.deserialize 0x200) [0xFF, 0x26, 0x04, 0x23, 0xC3, 0x28, 0x30, 0x30, 0x30] =
      .err (.parse .utf8)) := by
  decide +kernel

/-- where progress reports were negotiated, the code 0xFFFF makes one. -/
theorem C73_example_progress :
    runP (ErrPacket.deserialize 0x20000200) [0xFF, 0xFF, 0xFF, 1, 2, 3, 0x10, 0x27, 0, 2, 0x6F, 0x6B] =
      .ok (.progress 2 3 10000 [0x6F, 0x6B]) ∧
    (runP (ErrPacket.deserialize 0x200) [0xFF, 0xFF, 0xFF, 1, 2, 3, 0x10, 0x27, 0, 2, 0x6F, 0x6B] =
      .err (.invalidPacket [2, 3, 0x10, 0x27, 0, 2, 0x6F, 0x6B])) := by
  decide +kernel

/-- a number of rows in a longer form than needed, and a marker that is none. -/
theorem C73_example_ok :
    runP (OkPacket.readOk 0) [0, 0xFC, 5, 0, 0xFB, 2, 0, 1, 0] =
      .ok { affectedRows := 5
            lastInsertId := 0
            status := 2
            warnings := 1
            message := none
            sessionStateInfo := none } := by
  decide +kernel

end Verif

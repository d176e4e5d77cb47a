import Verif.Spec.AcceptedBin
import Verif.Props.C74_TextExact
import Verif.Props.C09_BinRows

/-! # C75 — exactly which binary rows are accepted -/

namespace Verif

open Decodes

/-- a check of an announced length in front of a decoder that needs less. -/
theorem checkLen_from {α : Type} {p : P α} {G : α → Bytes → Prop} {n : Nat} (hp : From n p G) (s : Bytes) (x : α)
    (s' : Bytes) : (P.checkLen n >>= fun _ => p) s = (.ok x, s') ↔ n ≤ s.length ∧ ∃ b, G x b ∧ s = b ++ s' := by
  by_cases h : s.length < n
  · have hc : P.checkLen n s = (.err .eof, s) := if_pos h
    rw [SM.bind_of_err hc]
    constructor
    · intro h'; cases h'
    · rintro ⟨h', _⟩
      omega
  · have hc : P.checkLen n s = (.ok (), s) := if_neg h
    rw [SM.bind_of_ok hc, hp _ _ _ (by omega)]
    exact ⟨fun h' => ⟨by omega, h'⟩, fun h' => h'.2⟩

/-- a length byte, then `G len`. -/
theorem lenByte {α : Type} {p : UInt8 → P α} {G : UInt8 → α → Bytes → Prop}
    (hp : ∀ len, From len.toNat (p len) (G len)) (s : Bytes) (x : α) (s' : Bytes) :
    (P.checkedEatU8 >>= fun len => P.checkLen len.toNat >>= fun _ => p len) s = (.ok x, s') ↔
      ∃ b, (∃ len c, b = len :: c ∧ len.toNat ≤ (b.length - 1) + s'.length ∧ G len x c) ∧ s = b ++ s' := by
  rw [SM.bind_eq_ok]
  constructor
  · rintro ⟨len, s1, h1, h2⟩
    obtain ⟨b1, rfl, rfl⟩ := (Decodes.checkedEatU8 _ _ _).1 h1
    obtain ⟨hl, b, hg, rfl⟩ := (checkLen_from (hp len) _ _ _).1 h2
    refine ⟨len :: b, ⟨len, b, rfl, ?_, hg⟩, rfl⟩
    simpa using hl
  · rintro ⟨_, ⟨len, c, rfl, hl, hg⟩, rfl⟩
    refine ⟨len, c ++ s', (Decodes.checkedEatU8 _ _ _).2 ⟨[len], rfl, rfl⟩, (checkLen_from (hp len) _ _ _).2 ⟨?_, c, hg, rfl⟩⟩
    simpa using hl

def ymd : P (UInt16 × UInt8 × UInt8) := do
  let year ← P.eatU16
  let month ← P.eatU8
  let day ← P.eatU8
  pure (year, month, day)

def hms : P (UInt8 × UInt8 × UInt8) := do
  let hour ← P.eatU8
  let minute ← P.eatU8
  let second ← P.eatU8
  pure (hour, minute, second)

theorem ymd_reads : Decodes ymd fun r b => b = Spec.le 2 r.1.toNat ++ [r.2.1, r.2.2] := by
  unfold ymd
  refine (Decodes.eatU16.bind fun y => Decodes.eatU8.bind fun m => Decodes.eatU8.bind fun d =>
    Decodes.pure' (y, m, d)).of_iff fun r b => ?_
  constructor
  · rintro ⟨y, _, _, rfl, ⟨m, _, _, rfl, ⟨d, _, _, rfl, ⟨rfl, rfl⟩, rfl⟩, rfl⟩, rfl⟩
    rfl
  · rintro rfl
    exact ⟨r.1, _, _, rfl, ⟨r.2.1, _, _, rfl, ⟨r.2.2, _, _, rfl, ⟨rfl, rfl⟩, rfl⟩, rfl⟩, rfl⟩

theorem hms_reads : Decodes hms fun r b => b = [r.1, r.2.1, r.2.2] := by
  unfold hms
  refine (Decodes.eatU8.bind fun y => Decodes.eatU8.bind fun m => Decodes.eatU8.bind fun d =>
    Decodes.pure' (y, m, d)).of_iff fun r b => ?_
  constructor
  · rintro ⟨y, _, _, rfl, ⟨m, _, _, rfl, ⟨d, _, _, rfl, ⟨rfl, rfl⟩, rfl⟩, rfl⟩, rfl⟩
    rfl
  · rintro rfl
    exact ⟨r.1, _, _, rfl, ⟨r.2.1, _, _, rfl, ⟨r.2.2, _, _, rfl, ⟨rfl, rfl⟩, rfl⟩, rfl⟩, rfl⟩

theorem pureBind {α β : Type} (a : α) (f : α → P β) : ((pure a : P α) >>= f) = f a := rfl

def dateBody (len : UInt8) : P Value :=
  if 4 ≤ len.toNat then ymd >>= fun r => pure (.date r.1 r.2.1 r.2.2) else pure (.date 0 0 0)

theorem deserializeDate_eq : deserializeDate =
    (P.checkedEatU8 >>= fun len => P.checkLen len.toNat >>= fun _ => dateBody len) := by
  unfold deserializeDate dateBody ymd
  simp only [SM.bind_assoc', pureBind]

def datetimeBody (len : UInt8) : P Value :=
  if len.toNat < 4 then pure (.datetime 0 0 0 0 0 0 0)
  else if len.toNat < 7 then ymd >>= fun r => pure (.datetime r.1 r.2.1 r.2.2 0 0 0 0)
  else if len = 11 then
    ymd >>= fun r => hms >>= fun t => P.eatU32 >>= fun us => pure (.datetime r.1 r.2.1 r.2.2 t.1 t.2.1 t.2.2 us)
  else ymd >>= fun r => hms >>= fun t => pure (.datetime r.1 r.2.1 r.2.2 t.1 t.2.1 t.2.2 0)

theorem deserializeDatetime_eq : deserializeDatetime =
    (P.checkedEatU8 >>= fun len => P.checkLen len.toNat >>= fun _ => datetimeBody len) := by
  unfold deserializeDatetime datetimeBody
  congr 1
  funext len
  congr 1
  funext _
  by_cases h4 : len.toNat < 4
  · have h11 : len ≠ 11 := by rintro rfl; exact absurd h4 (by decide)
    rw [if_pos h4]
    simp only [if_neg (show ¬ 4 ≤ len.toNat by omega), if_neg (show ¬ 7 ≤ len.toNat by omega), if_neg h11, pureBind]
  · rw [if_neg h4]
    by_cases h7 : len.toNat < 7
    · have h11 : len ≠ 11 := by rintro rfl; exact absurd h7 (by decide)
      rw [if_pos h7]
      unfold ymd
      simp only [if_pos (show 4 ≤ len.toNat by omega), if_neg (show ¬ 7 ≤ len.toNat by omega), if_neg h11,
        SM.bind_assoc', pureBind]
    · rw [if_neg h7]
      unfold ymd hms
      by_cases h11 : len = 11
      · subst h11
        simp only [if_pos (show 4 ≤ (11 : UInt8).toNat by decide), if_pos (show 7 ≤ (11 : UInt8).toNat by decide), if_true,
          SM.bind_assoc', pureBind]
      · simp only [if_pos (show 4 ≤ len.toNat by omega), if_pos (show 7 ≤ len.toNat by omega), if_neg h11,
          SM.bind_assoc', pureBind]

def dhms : P (Bool × UInt32 × UInt8 × UInt8 × UInt8) := do
  let neg ← P.eatU8
  let days ← P.eatU32
  let hours ← P.eatU8
  let minutes ← P.eatU8
  let seconds ← P.eatU8
  pure (neg == 1, days, hours, minutes, seconds)

def timeBody (len : UInt8) : P Value :=
  if len.toNat < 8 then pure (.time false 0 0 0 0 0)
  else if len = 12 then
    dhms >>= fun t => P.eatU32 >>= fun us => pure (.time t.1 t.2.1 t.2.2.1 t.2.2.2.1 t.2.2.2.2 us)
  else dhms >>= fun t => pure (.time t.1 t.2.1 t.2.2.1 t.2.2.2.1 t.2.2.2.2 0)

theorem deserializeTime_eq : deserializeTime =
    (P.checkedEatU8 >>= fun len => P.checkLen len.toNat >>= fun _ => timeBody len) := by
  unfold deserializeTime timeBody
  congr 1
  funext len
  congr 1
  funext _
  by_cases h8 : len.toNat < 8
  · have h12 : len ≠ 12 := by rintro rfl; exact absurd h8 (by decide)
    rw [if_pos h8]
    simp only [if_neg (show ¬ 8 ≤ len.toNat by omega), if_neg h12, pureBind]
  · rw [if_neg h8]
    unfold dhms
    by_cases h12 : len = 12
    · subst h12
      simp only [if_pos (show 8 ≤ (12 : UInt8).toNat by decide), if_true, SM.bind_assoc', pureBind]
    · simp only [if_pos (show 8 ≤ len.toNat by omega), if_neg h12, SM.bind_assoc', pureBind]

theorem dhms_reads : Decodes dhms fun r b => ∃ g : UInt8, r.1 = (g == 1) ∧
    b = [g] ++ Spec.le 4 r.2.1.toNat ++ [r.2.2.1, r.2.2.2.1, r.2.2.2.2] := by
  unfold dhms
  refine (Decodes.eatU8.bind fun g => Decodes.eatU32.bind fun dd => Decodes.eatU8.bind fun y => Decodes.eatU8.bind fun m =>
    Decodes.eatU8.bind fun d => Decodes.pure' (g == 1, dd, y, m, d)).of_iff fun r b => ?_
  constructor
  · rintro ⟨g, _, _, rfl, ⟨dd, _, _, rfl, ⟨y, _, _, rfl, ⟨m, _, _, rfl, ⟨d, _, _, rfl, ⟨rfl, rfl⟩, rfl⟩, rfl⟩, rfl⟩, rfl⟩, rfl⟩
    exact ⟨g, rfl, by simp⟩
  · rintro ⟨g, h, rfl⟩
    obtain ⟨r1, r2, r3, r4, r5⟩ := r
    dsimp only at h ⊢
    subst h
    exact ⟨g, _, _, rfl, ⟨r2, _, _, rfl, ⟨r3, _, _, rfl, ⟨r4, _, _, rfl, ⟨r5, _, _, rfl, ⟨rfl, rfl⟩, rfl⟩, rfl⟩, rfl⟩, rfl⟩, by simp⟩

theorem dateBody_reads (len : UInt8) : Decodes (dateBody len) fun v b =>
    (4 ≤ len.toNat ∧ ∃ y m d, v = .date y m d ∧ b = Spec.le 2 y.toNat ++ [m, d]) ∨
    (¬ 4 ≤ len.toNat ∧ v = .date 0 0 0 ∧ b = []) := by
  unfold dateBody
  refine (Decodes.ite _ (ymd_reads.bind fun r => Decodes.pure' (Value.date r.1 r.2.1 r.2.2)) (Decodes.pure' _)).of_iff fun v b => ?_
  refine or_congr (and_congr_right fun _ => ?_) Iff.rfl
  constructor
  · rintro ⟨r, _, _, rfl, ⟨rfl, rfl⟩, rfl⟩
    exact ⟨_, _, _, rfl, by simp⟩
  · rintro ⟨y, m, d, rfl, rfl⟩
    exact ⟨(y, m, d), _, _, rfl, ⟨rfl, rfl⟩, by simp⟩

theorem datetimeBody_reads (len : UInt8) : Decodes (datetimeBody len) fun v b =>
    (len.toNat < 4 ∧ v = .datetime 0 0 0 0 0 0 0 ∧ b = []) ∨
    (¬ len.toNat < 4 ∧ ((len.toNat < 7 ∧ ∃ y m d, v = .datetime y m d 0 0 0 0 ∧ b = Spec.le 2 y.toNat ++ [m, d]) ∨
      (¬ len.toNat < 7 ∧ ((len = 11 ∧ ∃ y mo d h m s us, v = .datetime y mo d h m s us ∧
          b = Spec.le 2 y.toNat ++ [mo, d, h, m, s] ++ Spec.le 4 us.toNat) ∨
        (len ≠ 11 ∧ ∃ y mo d h m s, v = .datetime y mo d h m s 0 ∧ b = Spec.le 2 y.toNat ++ [mo, d, h, m, s]))))) := by
  unfold datetimeBody
  refine (Decodes.ite _ (Decodes.pure' _) (Decodes.ite _ (ymd_reads.bind fun r => Decodes.pure' _)
    (Decodes.ite _ (ymd_reads.bind fun r => hms_reads.bind fun t => Decodes.eatU32.bind fun us => Decodes.pure' _)
      (ymd_reads.bind fun r => hms_reads.bind fun t => Decodes.pure' _)))).of_iff fun v b => ?_
  refine or_congr Iff.rfl (and_congr_right fun _ => or_congr (and_congr_right fun _ => ?_)
    (and_congr_right fun _ => or_congr (and_congr_right fun _ => ?_) (and_congr_right fun _ => ?_)))
  · constructor
    · rintro ⟨r, _, _, rfl, ⟨rfl, rfl⟩, rfl⟩
      exact ⟨_, _, _, rfl, by simp⟩
    · rintro ⟨y, m, d, rfl, rfl⟩
      exact ⟨(y, m, d), _, _, rfl, ⟨rfl, rfl⟩, by simp⟩
  · constructor
    · rintro ⟨r, _, _, rfl, ⟨t, _, _, rfl, ⟨us, _, _, rfl, ⟨rfl, rfl⟩, rfl⟩, rfl⟩, rfl⟩
      exact ⟨_, _, _, _, _, _, _, rfl, by simp⟩
    · rintro ⟨y, mo, d, h, m, s, us, rfl, rfl⟩
      exact ⟨(y, mo, d), _, _, rfl, ⟨(h, m, s), _, _, rfl, ⟨us, _, _, rfl, ⟨rfl, rfl⟩, rfl⟩, rfl⟩, by simp⟩
  · constructor
    · rintro ⟨r, _, _, rfl, ⟨t, _, _, rfl, ⟨rfl, rfl⟩, rfl⟩, rfl⟩
      exact ⟨_, _, _, _, _, _, rfl, by simp⟩
    · rintro ⟨y, mo, d, h, m, s, rfl, rfl⟩
      exact ⟨(y, mo, d), _, _, rfl, ⟨(h, m, s), _, _, rfl, ⟨rfl, rfl⟩, rfl⟩, by simp⟩

theorem timeBody_reads (len : UInt8) : Decodes (timeBody len) fun v b =>
    (len.toNat < 8 ∧ v = .time false 0 0 0 0 0 ∧ b = []) ∨
    (¬ len.toNat < 8 ∧ ((len = 12 ∧ ∃ g dd h m s us, v = .time (g == (1 : UInt8)) dd h m s us ∧
          b = [g] ++ Spec.le 4 dd.toNat ++ [h, m, s] ++ Spec.le 4 us.toNat) ∨
        (len ≠ 12 ∧ ∃ g dd h m s, v = .time (g == (1 : UInt8)) dd h m s 0 ∧
          b = [g] ++ Spec.le 4 dd.toNat ++ [h, m, s]))) := by
  unfold timeBody
  refine (Decodes.ite _ (Decodes.pure' _)
    (Decodes.ite _ (dhms_reads.bind fun t => Decodes.eatU32.bind fun us => Decodes.pure' _)
      (dhms_reads.bind fun t => Decodes.pure' _))).of_iff fun v b => ?_
  refine or_congr Iff.rfl (and_congr_right fun _ => or_congr (and_congr_right fun _ => ?_) (and_congr_right fun _ => ?_))
  · constructor
    · rintro ⟨⟨r1, r2, r3, r4, r5⟩, _, _, ⟨g, h, rfl⟩, ⟨us, _, _, rfl, ⟨rfl, rfl⟩, rfl⟩, rfl⟩
      dsimp only at h
      subst h
      exact ⟨g, _, _, _, _, _, rfl, by simp⟩
    · rintro ⟨g, dd, h, m, s, us, rfl, rfl⟩
      exact ⟨(g == 1, dd, h, m, s), _, _, ⟨g, rfl, rfl⟩, ⟨us, _, _, rfl, ⟨rfl, rfl⟩, rfl⟩, by simp⟩
  · constructor
    · rintro ⟨⟨r1, r2, r3, r4, r5⟩, _, _, ⟨g, h, rfl⟩, ⟨rfl, rfl⟩, rfl⟩
      dsimp only at h
      subst h
      exact ⟨g, _, _, _, _, rfl, by simp⟩
    · rintro ⟨g, dd, h, m, s, rfl, rfl⟩
      exact ⟨(g == 1, dd, h, m, s), _, _, ⟨g, rfl, rfl⟩, ⟨rfl, rfl⟩, by simp⟩

theorem leInt_int8 (x : Int8) : Spec.leInt 1 x.toInt = Spec.le 1 x.toUInt8.toNat := by
  unfold Spec.leInt
  congr 1
  have h1 : x.toInt = x.toBitVec.toInt := rfl
  have h2 : x.toUInt8.toNat = x.toBitVec.toNat := rfl
  have h3 := x.toBitVec.isLt
  rw [h1, h2, BitVec.toInt_eq_toNat_cond]
  split <;> omega

theorem int8_reads {p : P UInt8} (hp : Decodes p fun y b => b = Spec.le 1 y.toNat) (c : Int8 → Value) :
    Decodes (p >>= fun y => pure (c y.toInt8)) fun v b => ∃ x, v = c x ∧ b = Spec.leInt 1 x.toInt := by
  refine (hp.map (f := fun y => c y.toInt8)).of_iff fun v b => ?_
  constructor
  · rintro ⟨y, rfl, rfl⟩
    exact ⟨y.toInt8, rfl, by rw [leInt_int8]; rfl⟩
  · rintro ⟨x, rfl, rfl⟩
    exact ⟨x.toUInt8, by rw [leInt_int8], rfl⟩

theorem leInt_int16 (x : Int16) : Spec.leInt 2 x.toInt = Spec.le 2 x.toUInt16.toNat := by
  unfold Spec.leInt
  congr 1
  have h1 : x.toInt = x.toBitVec.toInt := rfl
  have h2 : x.toUInt16.toNat = x.toBitVec.toNat := rfl
  have h3 := x.toBitVec.isLt
  rw [h1, h2, BitVec.toInt_eq_toNat_cond]
  split <;> omega

theorem int16_reads {p : P UInt16} (hp : Decodes p fun y b => b = Spec.le 2 y.toNat) (c : Int16 → Value) :
    Decodes (p >>= fun y => pure (c y.toInt16)) fun v b => ∃ x, v = c x ∧ b = Spec.leInt 2 x.toInt := by
  refine (hp.map (f := fun y => c y.toInt16)).of_iff fun v b => ?_
  constructor
  · rintro ⟨y, rfl, rfl⟩
    exact ⟨y.toInt16, rfl, by rw [leInt_int16]; rfl⟩
  · rintro ⟨x, rfl, rfl⟩
    exact ⟨x.toUInt16, by rw [leInt_int16], rfl⟩

theorem leInt_int32 (x : Int32) : Spec.leInt 4 x.toInt = Spec.le 4 x.toUInt32.toNat := by
  unfold Spec.leInt
  congr 1
  have h1 : x.toInt = x.toBitVec.toInt := rfl
  have h2 : x.toUInt32.toNat = x.toBitVec.toNat := rfl
  have h3 := x.toBitVec.isLt
  rw [h1, h2, BitVec.toInt_eq_toNat_cond]
  split <;> omega

theorem int32_reads {p : P UInt32} (hp : Decodes p fun y b => b = Spec.le 4 y.toNat) (c : Int32 → Value) :
    Decodes (p >>= fun y => pure (c y.toInt32)) fun v b => ∃ x, v = c x ∧ b = Spec.leInt 4 x.toInt := by
  refine (hp.map (f := fun y => c y.toInt32)).of_iff fun v b => ?_
  constructor
  · rintro ⟨y, rfl, rfl⟩
    exact ⟨y.toInt32, rfl, by rw [leInt_int32]; rfl⟩
  · rintro ⟨x, rfl, rfl⟩
    exact ⟨x.toUInt32, by rw [leInt_int32], rfl⟩

theorem leInt_int64 (x : Int64) : Spec.leInt 8 x.toInt = Spec.le 8 x.toUInt64.toNat := by
  unfold Spec.leInt
  congr 1
  have h1 : x.toInt = x.toBitVec.toInt := rfl
  have h2 : x.toUInt64.toNat = x.toBitVec.toNat := rfl
  have h3 := x.toBitVec.isLt
  rw [h1, h2, BitVec.toInt_eq_toNat_cond]
  split <;> omega

theorem int64_reads {p : P UInt64} (hp : Decodes p fun y b => b = Spec.le 8 y.toNat) (c : Int64 → Value) :
    Decodes (p >>= fun y => pure (c y.toInt64)) fun v b => ∃ x, v = c x ∧ b = Spec.leInt 8 x.toInt := by
  refine (hp.map (f := fun y => c y.toInt64)).of_iff fun v b => ?_
  constructor
  · rintro ⟨y, rfl, rfl⟩
    exact ⟨y.toInt64, rfl, by rw [leInt_int64]; rfl⟩
  · rintro ⟨x, rfl, rfl⟩
    exact ⟨x.toUInt64, by rw [leInt_int64], rfl⟩

theorem uint_reads {α : Type} {p : P α} {k : Nat} (g : α → Nat) (hp : Decodes p fun y b => b = Spec.le k (g y))
    (c : α → Value) :
    Decodes (p >>= fun y => pure (c y)) fun v b => ∃ x, v = c x ∧ b = Spec.le k (g x) :=
  (hp.map (f := c)).of_iff fun _ _ =>
    ⟨fun ⟨y, h1, h2⟩ => ⟨y, h2, h1⟩, fun ⟨y, h1, h2⟩ => ⟨y, h2, h1⟩⟩

theorem checkedEatU8_le : Decodes P.checkedEatU8 fun y b => b = Spec.le 1 y.toNat :=
  Decodes.checkedEatU8.of_iff fun y b => by
    have : Spec.le 1 y.toNat = [y] := by simp [Spec.le]
    rw [this]

theorem checkedEatU32_le : Decodes P.checkedEatU32 fun y b => b = Spec.le 4 y.toNat :=
  nat_of (checkedEatNat 4) UInt32.ofNat UInt32.toNat (fun x => x.toNat_lt) (by simp)
    fun n h => by rw [UInt32.toNat_ofNat']; omega

theorem slice_form (v : Value) (b : Bytes) :
    (∃ a, (∃ l, a.length < 2 ^ 64 ∧ Spec.IntForm a.length l ∧ b = l ++ a) ∧ v = Value.bytes a) ↔
      ∃ a, v = .bytes a ∧ ∃ l, Spec.IntForm a.length l ∧ b = l ++ a :=
  exists_congr fun _ => ⟨fun ⟨⟨l, _, h1, h2⟩, h⟩ => ⟨h, l, h1, h2⟩,
    fun ⟨h, l, h1, h2⟩ => ⟨⟨l, intForm_lt h1, h1, h2⟩, h⟩⟩

theorem u8_eq_iff (x : UInt8) (n : Nat) (h : n < 256) : x.toNat = n ↔ x = UInt8.ofNat n := by
  constructor
  · rintro rfl
    simp
  · rintro rfl
    rw [UInt8.toNat_ofNat']
    omega

theorem datetime_form (y : UInt16) (mo d h m s : UInt8) (us : UInt32) (b rest : Bytes) :
    (∃ (len : UInt8) (c : Bytes), b = len :: c ∧ len.toNat ≤ (b.length - 1) + rest.length ∧
      ((len.toNat < 4 ∧ Value.datetime y mo d h m s us = .datetime 0 0 0 0 0 0 0 ∧ c = []) ∨
       (¬ len.toNat < 4 ∧ ((len.toNat < 7 ∧ ∃ y' m' d', Value.datetime y mo d h m s us = .datetime y' m' d' 0 0 0 0 ∧
            c = Spec.le 2 y'.toNat ++ [m', d']) ∨
         (¬ len.toNat < 7 ∧ ((len = 11 ∧ ∃ y' mo' d' h' m' s' us',
              Value.datetime y mo d h m s us = .datetime y' mo' d' h' m' s' us' ∧
              c = Spec.le 2 y'.toNat ++ [mo', d', h', m', s'] ++ Spec.le 4 us'.toNat) ∨
           (len ≠ 11 ∧ ∃ y' mo' d' h' m' s', Value.datetime y mo d h m s us = .datetime y' mo' d' h' m' s' 0 ∧
              c = Spec.le 2 y'.toNat ++ [mo', d', h', m', s']))))))) ↔
    ∃ len : UInt8, len.toNat ≤ (b.length - 1) + rest.length ∧
      ((len.toNat < 4 ∧ b = [len] ∧ y = 0 ∧ mo = 0 ∧ d = 0 ∧ h = 0 ∧ m = 0 ∧ s = 0 ∧ us = 0) ∨
       (4 ≤ len.toNat ∧ len.toNat < 7 ∧ b = len :: Spec.le 2 y.toNat ++ [mo, d] ∧ h = 0 ∧ m = 0 ∧ s = 0 ∧ us = 0) ∨
       (7 ≤ len.toNat ∧ len.toNat ≠ 11 ∧ b = len :: Spec.le 2 y.toNat ++ [mo, d, h, m, s] ∧ us = 0) ∨
       (len.toNat = 11 ∧ b = len :: Spec.le 2 y.toNat ++ [mo, d, h, m, s] ++ Spec.le 4 us.toNat)) := by
  constructor
  · rintro ⟨len, c, rfl, hl, ⟨h1, e, rfl⟩ | ⟨h1, ⟨h2, y', m', d', e, rfl⟩ | ⟨h2, ⟨rfl, y', mo', d', h', m', s', us', e, rfl⟩ |
      ⟨h3, y', mo', d', h', m', s', e, rfl⟩⟩⟩⟩
    · cases e
      exact ⟨len, hl, Or.inl ⟨h1, rfl, rfl, rfl, rfl, rfl, rfl, rfl, rfl⟩⟩
    · cases e
      exact ⟨len, hl, Or.inr (Or.inl ⟨by omega, h2, rfl, rfl, rfl, rfl, rfl⟩)⟩
    · cases e
      exact ⟨11, hl, Or.inr (Or.inr (Or.inr ⟨rfl, rfl⟩))⟩
    · cases e
      exact ⟨len, hl, Or.inr (Or.inr (Or.inl ⟨by omega, fun h => h3 ((u8_eq_iff len 11 (by omega)).1 h), rfl, rfl⟩))⟩
  · rintro ⟨len, hl, ⟨h1, rfl, rfl, rfl, rfl, rfl, rfl, rfl, rfl⟩ | ⟨h1, h2, rfl, rfl, rfl, rfl, rfl⟩ | ⟨h1, h2, rfl, rfl⟩ |
      ⟨h1, rfl⟩⟩
    · exact ⟨len, [], rfl, hl, Or.inl ⟨h1, rfl, rfl⟩⟩
    · exact ⟨len, _, rfl, hl, Or.inr ⟨by omega, Or.inl ⟨h2, _, _, _, rfl, rfl⟩⟩⟩
    · exact ⟨len, _, rfl, hl, Or.inr ⟨by omega, Or.inr ⟨by omega, Or.inr ⟨by rintro rfl; exact h2 rfl,
        _, _, _, _, _, _, rfl, rfl⟩⟩⟩⟩
    · exact ⟨len, _, rfl, hl, Or.inr ⟨by omega, Or.inr ⟨by omega, Or.inl ⟨(u8_eq_iff len 11 (by omega)).1 h1,
        _, _, _, _, _, _, _, rfl, rfl⟩⟩⟩⟩

theorem sign_iff (neg : Bool) (g : UInt8) : (neg = true ↔ g = 1) ↔ neg = (g == 1) := by
  cases neg <;> by_cases hg : g = 1 <;> simp [hg]

theorem time_form (neg : Bool) (days : UInt32) (h m s : UInt8) (us : UInt32) (b rest : Bytes) :
    (∃ (len : UInt8) (c : Bytes), b = len :: c ∧ len.toNat ≤ (b.length - 1) + rest.length ∧
      ((len.toNat < 8 ∧ Value.time neg days h m s us = .time false 0 0 0 0 0 ∧ c = []) ∨
       (¬ len.toNat < 8 ∧ ((len = 12 ∧ ∃ g dd h' m' s' us',
              Value.time neg days h m s us = .time (g == (1 : UInt8)) dd h' m' s' us' ∧
              c = [g] ++ Spec.le 4 dd.toNat ++ [h', m', s'] ++ Spec.le 4 us'.toNat) ∨
           (len ≠ 12 ∧ ∃ g dd h' m' s', Value.time neg days h m s us = .time (g == (1 : UInt8)) dd h' m' s' 0 ∧
              c = [g] ++ Spec.le 4 dd.toNat ++ [h', m', s']))))) ↔
    ∃ len : UInt8, len.toNat ≤ (b.length - 1) + rest.length ∧
      ((len.toNat < 8 ∧ b = [len] ∧ neg = false ∧ days = 0 ∧ h = 0 ∧ m = 0 ∧ s = 0 ∧ us = 0) ∨
       (8 ≤ len.toNat ∧ len.toNat ≠ 12 ∧ us = 0 ∧
         ∃ g, (neg = true ↔ g = (1 : UInt8)) ∧ b = [len, g] ++ Spec.le 4 days.toNat ++ [h, m, s]) ∨
       (len.toNat = 12 ∧
         ∃ g, (neg = true ↔ g = (1 : UInt8)) ∧ b = [len, g] ++ Spec.le 4 days.toNat ++ [h, m, s] ++ Spec.le 4 us.toNat)) := by
  constructor
  · rintro ⟨len, c, rfl, hl, ⟨h1, e, rfl⟩ | ⟨h1, ⟨rfl, g, dd, h', m', s', us', e, rfl⟩ | ⟨h3, g, dd, h', m', s', e, rfl⟩⟩⟩
    · cases e
      exact ⟨len, hl, Or.inl ⟨h1, rfl, rfl, rfl, rfl, rfl, rfl, rfl⟩⟩
    · cases e
      exact ⟨12, hl, Or.inr (Or.inr ⟨rfl, g, by simp, rfl⟩)⟩
    · cases e
      exact ⟨len, hl, Or.inr (Or.inl ⟨by omega, fun h => h3 ((u8_eq_iff len 12 (by omega)).1 h), rfl, g, by simp, rfl⟩)⟩
  · rintro ⟨len, hl, ⟨h1, rfl, rfl, rfl, rfl, rfl, rfl, rfl⟩ | ⟨h1, h2, rfl, g, hg, rfl⟩ | ⟨h1, g, hg, rfl⟩⟩
    · exact ⟨len, [], rfl, hl, Or.inl ⟨h1, rfl, rfl⟩⟩
    · rw [sign_iff] at hg
      subst hg
      exact ⟨len, _, rfl, hl, Or.inr ⟨by omega, Or.inr ⟨by rintro rfl; exact h2 rfl, g, _, _, _, _, rfl, rfl⟩⟩⟩
    · rw [sign_iff] at hg
      subst hg
      exact ⟨len, _, rfl, hl, Or.inr ⟨by omega, Or.inl ⟨(u8_eq_iff len 12 (by omega)).1 h1, g, _, _, _, _, _, rfl, rfl⟩⟩⟩

/-- Exactly the bytes of the specification are accepted, as the values it gives them. -/
theorem C75_value (t : ColumnType) (flags : UInt16) (s : Bytes) (v : Value) (rest : Bytes) :
    deserializeBin t flags s = (.ok v, rest) ↔
      ∃ b, Spec.BinValue t.toByte.toNat (hasFlag16 flags ColFlag.UNSIGNED) v b rest ∧ s = b ++ rest := by
  unfold deserializeBin
  generalize hasFlag16 flags ColFlag.UNSIGNED = u
  cases t <;> dsimp only
  case tiny =>
    cases u
    · rw [show deserializeTiny false = (P.checkedEatU8 >>= fun y => pure (.tiny y.toInt8)) from rfl,
        int8_reads checkedEatU8_le Value.tiny s v rest]
      refine exists_congr fun b => and_congr_left fun _ => ?_
      cases v <;> simp [Spec.BinValue, ColumnType.toByte, Spec.isStringType]
    · rw [show deserializeTiny true = (P.checkedEatU8 >>= fun y => pure (.utiny y)) from rfl,
        uint_reads _ checkedEatU8_le Value.utiny s v rest]
      refine exists_congr fun b => and_congr_left fun _ => ?_
      cases v <;> simp [Spec.BinValue, ColumnType.toByte, Spec.isStringType]
  case short | year =>
    cases u
    · rw [show deserializeShort false = (P.checkedEatU16 >>= fun y => pure (.short y.toInt16)) from rfl,
        int16_reads Decodes.checkedEatU16 Value.short s v rest]
      refine exists_congr fun b => and_congr_left fun _ => ?_
      cases v <;> simp [Spec.BinValue, ColumnType.toByte, Spec.isStringType]
    · rw [show deserializeShort true = (P.checkedEatU16 >>= fun y => pure (.ushort y)) from rfl,
        uint_reads _ Decodes.checkedEatU16 Value.ushort s v rest]
      refine exists_congr fun b => and_congr_left fun _ => ?_
      cases v <;> simp [Spec.BinValue, ColumnType.toByte, Spec.isStringType]
  case long | int24 =>
    cases u
    · rw [show deserializeInt false = (P.checkedEatU32 >>= fun y => pure (.int y.toInt32)) from rfl,
        int32_reads checkedEatU32_le Value.int s v rest]
      refine exists_congr fun b => and_congr_left fun _ => ?_
      cases v <;> simp [Spec.BinValue, ColumnType.toByte, Spec.isStringType]
    · rw [show deserializeInt true = (P.checkedEatU32 >>= fun y => pure (.uint y)) from rfl,
        uint_reads _ checkedEatU32_le Value.uint s v rest]
      refine exists_congr fun b => and_congr_left fun _ => ?_
      cases v <;> simp [Spec.BinValue, ColumnType.toByte, Spec.isStringType]
  case longLong =>
    cases u
    · rw [show deserializeLong false = (P.checkedEatU64 >>= fun y => pure (.long y.toInt64)) from rfl,
        int64_reads Decodes.checkedEatU64 Value.long s v rest]
      refine exists_congr fun b => and_congr_left fun _ => ?_
      cases v <;> simp [Spec.BinValue, ColumnType.toByte, Spec.isStringType]
    · rw [show deserializeLong true = (P.checkedEatU64 >>= fun y => pure (.ulong y)) from rfl,
        uint_reads _ Decodes.checkedEatU64 Value.ulong s v rest]
      refine exists_congr fun b => and_congr_left fun _ => ?_
      cases v <;> simp [Spec.BinValue, ColumnType.toByte, Spec.isStringType]
  case float =>
    rw [uint_reads _ checkedEatU32_le Value.float s v rest]
    refine exists_congr fun b => and_congr_left fun _ => ?_
    cases v <;> simp [Spec.BinValue, ColumnType.toByte, Spec.isStringType]
  case double =>
    rw [uint_reads _ Decodes.checkedEatU64 Value.double s v rest]
    refine exists_congr fun b => and_congr_left fun _ => ?_
    cases v <;> simp [Spec.BinValue, ColumnType.toByte, Spec.isStringType]
  case null =>
    rw [Decodes.pure' Value.null s v rest]
    refine exists_congr fun b => and_congr_left fun _ => ?_
    cases v <;> simp [Spec.BinValue, ColumnType.toByte, Spec.isStringType]
  case string | varString | varchar | blob | tinyBlob | mediumBlob | longBlob | set | enum | decimal | bit
      | newDecimal | geometry | json =>
    rw [lenencSlice_reads.map (f := Value.bytes) s v rest]
    refine exists_congr fun b => and_congr_left fun _ => ?_
    refine (slice_form v b).trans ?_
    cases v <;> simp [Spec.BinValue, ColumnType.toByte, Spec.isStringType]
  case date =>
    rw [deserializeDate_eq, lenByte fun len => (dateBody_reads len).from' _]
    refine exists_congr fun b => and_congr_left fun _ => ?_
    cases v <;> simp [Spec.BinValue, ColumnType.toByte, Spec.isStringType]
    constructor
    · rintro ⟨len, c, rfl, h, ⟨h1, rfl⟩ | ⟨h1, ⟨rfl, rfl, rfl⟩, rfl⟩⟩
      · exact ⟨len, h, Or.inr ⟨h1, rfl⟩⟩
      · exact ⟨len, h, Or.inl ⟨h1, rfl, rfl, rfl, rfl⟩⟩
    · rintro ⟨len, h, ⟨h1, rfl, rfl, rfl, rfl⟩ | ⟨h1, rfl⟩⟩
      · exact ⟨len, _, rfl, h, Or.inr ⟨h1, ⟨rfl, rfl, rfl⟩, rfl⟩⟩
      · exact ⟨len, _, rfl, h, Or.inl ⟨h1, rfl⟩⟩
  case timestamp | datetime =>
    rw [deserializeDatetime_eq, lenByte fun len => (datetimeBody_reads len).from' _]
    refine exists_congr fun b => and_congr_left fun _ => ?_
    cases v with
    | datetime y mo d h m s us =>
      simp only [Spec.BinValue, ColumnType.toByte]
      rw [and_iff_right (by decide)]
      exact datetime_form y mo d h m s us b rest
    | _ => simp [Spec.BinValue, ColumnType.toByte, Spec.isStringType]
  case time =>
    rw [deserializeTime_eq, lenByte fun len => (timeBody_reads len).from' _]
    refine exists_congr fun b => and_congr_left fun _ => ?_
    cases v with
    | time neg days h m s us =>
      simp only [Spec.BinValue, ColumnType.toByte]
      rw [and_iff_right (by decide)]
      exact time_form neg days h m s us b rest
    | _ => simp [Spec.BinValue, ColumnType.toByte, Spec.isStringType]
  all_goals
    rw [show (SM.crash : P Value) s = (.panic, s) from rfl]
    constructor
    · intro h; cases h
    · rintro ⟨b, h, _⟩
      cases v <;> simp [Spec.BinValue, ColumnType.toByte, Spec.isStringType] at h

theorem binRowLoop_ok (bm : Bytes) (cols : List Column) (i : Nat) (hl : i + cols.length ≤ 8 * bm.length - 2)
    (s : Bytes) (vs : List Value) :
    (∃ s', binRowLoop bm i cols s = (.ok vs, s')) ↔ Spec.BinCells bm i (cols.map Column.wireType) vs s := by
  induction cols generalizing i s vs with
  | nil =>
    constructor
    · rintro ⟨s', h⟩
      cases h
      exact .nil
    · intro h
      cases h
      exact ⟨s, rfl⟩
  | cons c cols ih =>
    simp only [List.length_cons] at hl
    have hn : NullBitmap.isNull (ε := ProtocolError) false bm i = .ok (Spec.bitSet bm (i + 2)) := by
      rw [NullBitmap.isNull_eq, if_pos]
      · rfl
      · simp only [NullBitmap.offset]; simp; omega
    have ih := ih (i + 1) (by omega)
    unfold binRowLoop
    have ho : (SM.ofOut (NullBitmap.isNull false bm i) : P Bool) s = (.ok (Spec.bitSet bm (i + 2)), s) := by
      rw [hn]; rfl
    rw [SM.bind_of_ok ho]
    cases hb : Spec.bitSet bm (i + 2) with
    | true =>
      rw [if_pos rfl]
      constructor
      · rintro ⟨s', h⟩
        obtain ⟨vs', s1, h1, h2⟩ := SM.bind_eq_ok.1 h
        cases h2
        exact .null hb ((ih s vs').1 ⟨_, h1⟩)
      · intro h
        cases h with
        | null _ h =>
          obtain ⟨s', h⟩ := (ih s _).2 h
          exact ⟨s', SM.bind_eq_ok.2 ⟨_, _, h, rfl⟩⟩
        | cell h _ _ => rw [hb] at h; cases h
    | false =>
      rw [if_neg (by decide)]
      constructor
      · rintro ⟨s', h⟩
        obtain ⟨v, s1, h1, h2⟩ := SM.bind_eq_ok.1 h
        obtain ⟨vs', s2, h2, h3⟩ := SM.bind_eq_ok.1 h2
        cases h3
        obtain ⟨b, hv, rfl⟩ := (C75_value ..).1 h1
        exact .cell hb hv ((ih s1 vs').1 ⟨_, h2⟩)
      · intro h
        cases h with
        | null h _ => rw [hb] at h; cases h
        | cell _ hv hr =>
          obtain ⟨s', h⟩ := (ih _ _).2 hr
          exact ⟨s', SM.bind_eq_ok.2 ⟨_, _, (C75_value ..).2 ⟨_, hv, rfl⟩, SM.bind_eq_ok.2 ⟨_, _, h, rfl⟩⟩⟩

theorem bitmap_nil (cols : List Column) :
    NullBitmap.deserialize false cols.length [] = (.err .eof, []) := by
  have hb : ([] : Bytes).length < NullBitmap.bitmapLen false cols.length := by
    show 0 < (cols.length + 9) / 8
    omega
  unfold NullBitmap.deserialize P.checkedEat
  exact if_neg (by omega)

/-- Exactly the packets of a byte of any kind, a bitmap for the columns and values for the columns that are not NULL
there are accepted as rows. -/
theorem C75_row (cols : List Column) (p : Bytes) (vs : List Value) :
    readBinRow p cols = .ok vs ↔
      ∃ head bm s, bm.length = (cols.length + 9) / 8 ∧ Spec.BinCells bm 0 (cols.map Column.wireType) vs s ∧
        p = head :: bm ++ s := by
  unfold readBinRow runP
  have hb : NullBitmap.bitmapLen false cols.length = (cols.length + 9) / 8 := rfl
  cases p with
  | nil =>
    constructor
    · intro h
      rw [SM.bind_of_ok (show P.skip 1 [] = (.ok (), []) from rfl), SM.bind_of_err (bitmap_nil cols)] at h
      cases h
    · rintro ⟨head, bm, s, _, _, h⟩
      cases h
  | cons head p =>
    rw [SM.bind_of_ok (show P.skip 1 (head :: p) = (.ok (), p) from rfl)]
    constructor
    · intro h
      have h : ((NullBitmap.deserialize false cols.length >>= fun bitmap => binRowLoop bitmap 0 cols) p) =
        (.ok vs, ((NullBitmap.deserialize false cols.length >>= fun bitmap => binRowLoop bitmap 0 cols) p).2) :=
        Prod.ext h rfl
      obtain ⟨bm, s, h1, h2⟩ := SM.bind_eq_ok.1 h
      obtain ⟨_, ⟨hl, rfl⟩, rfl⟩ := (Decodes.checkedEat _ _ _ _).1 h1
      refine ⟨head, bm, s, hl, (binRowLoop_ok bm cols 0 (by rw [hl, hb]; omega) s vs).1 ⟨_, h2⟩, rfl⟩
    · rintro ⟨head', bm, s, hl, hc, e⟩
      injection e with e1 e2
      subst e2
      obtain ⟨s', h⟩ := (binRowLoop_ok bm cols 0 (by rw [hl]; omega) s vs).2 hc
      have h1 : NullBitmap.deserialize false cols.length (bm ++ s) = (.ok bm, s) :=
        (Decodes.checkedEat _ _ _ _).2 ⟨bm, ⟨hl, rfl⟩, rfl⟩
      show ((NullBitmap.deserialize false cols.length >>= fun bitmap => binRowLoop bitmap 0 cols) (bm ++ s)).1 = _
      rw [SM.bind_of_ok h1, h]

theorem bin_crash (t : ColumnType) (f : UInt16) (h : Spec.noBinary t = true) (s : Bytes) :
    deserializeBin t f s = (.panic, s) := by
  cases t <;> first | exact absurd h (by decide) | rfl

theorem binRowLoop_panic (bm : Bytes) (cols : List Column) (i : Nat) (hl : i + cols.length ≤ 8 * bm.length - 2)
    (s : Bytes) : (binRowLoop bm i cols s).1 = .panic ↔
      ∃ before c after vs, cols = before ++ c :: after ∧ Spec.BinCells bm i (before.map Column.wireType) vs s ∧
        Spec.bitSet bm (i + before.length + 2) = false ∧ Spec.noBinary c.type = true := by
  induction cols generalizing i s with
  | nil =>
    constructor
    · intro h; cases h
    · rintro ⟨before, c, after, vs, h, _⟩
      cases before <;> cases h
  | cons c cols ih =>
    simp only [List.length_cons] at hl
    have hn : NullBitmap.isNull (ε := ProtocolError) false bm i = .ok (Spec.bitSet bm (i + 2)) := by
      rw [NullBitmap.isNull_eq, if_pos]
      · rfl
      · simp only [NullBitmap.offset]; simp; omega
    have ih := ih (i + 1) (by omega)
    unfold binRowLoop
    have ho : (SM.ofOut (NullBitmap.isNull false bm i) : P Bool) s = (.ok (Spec.bitSet bm (i + 2)), s) := by
      rw [hn]; rfl
    rw [SM.bind_of_ok ho]
    cases hb : Spec.bitSet bm (i + 2) with
    | true =>
      rw [if_pos rfl, bind_panic_iff, ih]
      constructor
      · rintro (⟨before, c', after, vs, rfl, h1, h2, h3⟩ | ⟨_, _, _, h⟩)
        · refine ⟨c :: before, c', after, .null :: vs, rfl, .null hb h1, ?_, h3⟩
          rw [← h2, List.length_cons]
          congr 1
          omega
        · cases h
      · rintro ⟨before, c', after, vs, e, h1, h2, h3⟩
        cases before with
        | nil => rw [show i + [].length + 2 = i + 2 from rfl, hb] at h2; cases h2
        | cons c'' before =>
          injection e with e1 e2
          subst e1
          subst e2
          left
          cases h1 with
          | null _ h1 =>
            refine ⟨before, c', after, _, rfl, h1, ?_, h3⟩
            rw [← h2, List.length_cons]
            congr 1
            omega
          | cell h _ _ => rw [hb] at h; cases h
    | false =>
      rw [if_neg (by decide), bind_panic_iff]
      constructor
      · rintro (h | ⟨v, s', h1, h2⟩)
        · by_cases hc : Spec.noBinary c.type = true
          · exact ⟨[], c, cols, [], rfl, .nil, hb, hc⟩
          · exact absurd h (Lens.bin c.type c.flags (by simpa using hc) s (Nat.zero_le _)).1
        · rw [bind_panic_iff] at h2
          rcases h2 with h2 | ⟨_, _, _, h⟩
          · obtain ⟨before, c', after, vs, rfl, g1, g2, g3⟩ := (ih s').1 h2
            obtain ⟨b, hv, rfl⟩ := (C75_value ..).1 h1
            refine ⟨c :: before, c', after, v :: vs, rfl, .cell hb hv g1, ?_, g3⟩
            rw [← g2, List.length_cons]
            congr 1
            omega
          · cases h
      · rintro ⟨before, c', after, vs, e, h1, h2, h3⟩
        cases before with
        | nil =>
          injection e with e1 e2
          subst e1
          exact Or.inl (by rw [bin_crash _ _ h3])
        | cons c'' before =>
          injection e with e1 e2
          subst e1
          subst e2
          cases h1 with
          | null h _ => rw [hb] at h; cases h
          | cell _ hv h1 =>
            refine Or.inr ⟨_, _, (C75_value ..).2 ⟨_, hv, rfl⟩, ?_⟩
            rw [bind_panic_iff]
            refine Or.inl ((ih _).2 ⟨before, c', after, _, rfl, h1, ?_, h3⟩)
            rw [← h2, List.length_cons]
            congr 1
            omega

/-- Exactly which packets end in a panic: the values before the column can be read, and it is not NULL although of a
type without decoder. -/
theorem C75_row_panic (cols : List Column) (p : Bytes) :
    readBinRow p cols = .panic ↔
      ∃ head bm s before c after vs, bm.length = (cols.length + 9) / 8 ∧ p = head :: bm ++ s ∧
        cols = before ++ c :: after ∧ Spec.BinCells bm 0 (before.map Column.wireType) vs s ∧
        Spec.bitSet bm (before.length + 2) = false ∧
        c.type.toByte.toNat ∈ [14, 17, 18, 19, 20, 243] := by
  have hty : ∀ t : ColumnType, Spec.noBinary t = true ↔ t.toByte.toNat ∈ [14, 17, 18, 19, 20, 243] := by
    intro t
    cases t <;> decide
  unfold readBinRow runP
  cases p with
  | nil =>
    rw [SM.bind_of_ok (show P.skip 1 [] = (.ok (), []) from rfl), SM.bind_of_err (bitmap_nil cols)]
    constructor
    · intro h; cases h
    · rintro ⟨_, _, _, _, _, _, _, _, h, _⟩
      cases h
  | cons head p =>
    rw [SM.bind_of_ok (show P.skip 1 (head :: p) = (.ok (), p) from rfl), bind_panic_iff]
    constructor
    · rintro (h | ⟨bm, s, h1, h2⟩)
      · exact absurd h (Lens.checkedEat (n := 0) (m := 0) _ (by omega) p (Nat.zero_le _)).1
      · obtain ⟨_, ⟨hl, rfl⟩, rfl⟩ := (Decodes.checkedEat _ _ _ _).1 h1
        have hl : bm.length = (cols.length + 9) / 8 := hl
        obtain ⟨before, c, after, vs, g1, g2, g3, g4⟩ := (binRowLoop_panic bm cols 0 (by rw [hl]; omega) s).1 h2
        exact ⟨head, bm, s, before, c, after, vs, hl, rfl, g1, g2, by rw [← g3, Nat.zero_add], (hty _).1 g4⟩
    · rintro ⟨head', bm, s, before, c, after, vs, hl, e, g1, g2, g3, g4⟩
      injection e with _ e
      subst e
      refine Or.inr ⟨bm, s, (Decodes.checkedEat _ _ _ _).2 ⟨bm, ⟨hl, rfl⟩, rfl⟩, ?_⟩
      exact (binRowLoop_panic bm cols 0 (by rw [hl]; omega) s).2
        ⟨before, c, after, vs, g1, g2, by rw [← g3, Nat.zero_add], (hty _).2 g4⟩

/-! ### examples -/

open C74ex in
/-- A date that announces five bytes: four are read, the fifth becomes the first byte of the next value. -/
theorem C75_example_shift :
    readBinRow [7, 0, 5, 0xE8, 7, 1, 2, 9, 3] [col .date, col .tiny] = .ok [.date 2024 1 2, .tiny 9] ∧
    readBinRow [0, 0, 3, 1, 2, 3] [col .date, col .tiny] = .ok [.date 0 0 0, .tiny 1] ∧
    readBinRow [0, 0, 8, 2, 1, 0, 0, 0, 3, 4, 5] [col .time] = .ok [.time false 1 3 4 5 0] ∧
    readBinRow [0, 4, 1, 0x61] [col .newDate, col .blob] = .ok [.null, .bytes [0x61]] ∧
    readBinRow [0, 0, 1, 0x61] [col .newDate, col .blob] = .panic := by
  refine ⟨?_, ?_, ?_, ?_, ?_⟩ <;> rfl

end Verif

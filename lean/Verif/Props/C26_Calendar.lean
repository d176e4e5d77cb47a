import Verif.Model.Convert
import Verif.Proofs.Utf8

/-! # C26 — calendar conversions are lossless or rejected -/

namespace Verif

/-- Gregorian calendar, written independently: lengths of the months. -/
def Spec.monthLength (leap : Bool) (m : Nat) : Nat :=
  ([31, if leap then 29 else 28, 31, 30, 31, 30, 31, 31, 30, 31, 30, 31][m - 1]?).getD 0

def Spec.leapYear (y : Nat) : Bool := if y % 400 = 0 then true else if y % 100 = 0 then false else y % 4 = 0

/-- a day that exists. -/
def Spec.realDate (y m d : Nat) : Prop :=
  1 ≤ m ∧ m ≤ 12 ∧ 1 ≤ d ∧ d ≤ Spec.monthLength (Spec.leapYear y) m

theorem isLeap_eq (y : Nat) : isLeap (y : Int) = Spec.leapYear y := by
  unfold isLeap Spec.leapYear
  rw [Bool.eq_iff_iff]
  by_cases h1 : y % 400 = 0
  · rw [if_pos h1]
    simp only [Bool.and_eq_true, Bool.or_eq_true, beq_iff_eq, bne_iff_ne, iff_true]
    omega
  · rw [if_neg h1]
    by_cases h2 : y % 100 = 0
    · rw [if_pos h2]
      simp only [Bool.and_eq_true, Bool.or_eq_true, beq_iff_eq, bne_iff_ne, Bool.false_eq_true,
        iff_false]
      omega
    · rw [if_neg h2]
      simp only [Bool.and_eq_true, Bool.or_eq_true, beq_iff_eq, bne_iff_ne, decide_eq_true_eq]
      omega

theorem daysInMonth_eq (y m : Nat) (h1 : 1 ≤ m) (h2 : m ≤ 12) :
    daysInMonth y m = Spec.monthLength (Spec.leapYear y) m := by
  unfold daysInMonth
  rw [isLeap_eq]
  generalize Spec.leapYear y = l
  have : ∀ m, 1 ≤ m → m ≤ 12 → ∀ l : Bool,
      (if m = 2 then (if l then 29 else 28) else if m = 4 ∨ m = 6 ∨ m = 9 ∨ m = 11 then 30 else 31)
        = Spec.monthLength l m := by
    intro m h1 h2 l
    have hm : m = 1 ∨ m = 2 ∨ m = 3 ∨ m = 4 ∨ m = 5 ∨ m = 6 ∨ m = 7 ∨ m = 8 ∨ m = 9 ∨ m = 10 ∨
      m = 11 ∨ m = 12 := by omega
    rcases hm with rfl | rfl | rfl | rfl | rfl | rfl | rfl | rfl | rfl | rfl | rfl | rfl <;>
      cases l <;> rfl
  exact this m h1 h2 l

theorem fromYmdOpt_eq (y : UInt16) (m d : Nat) :
    (Spec.realDate y.toNat m d → NaiveDate.fromYmdOpt y.toNat m d = some ⟨y.toNat, m, d⟩) ∧
    (¬Spec.realDate y.toNat m d → NaiveDate.fromYmdOpt y.toNat m d = none) := by
  have hy := y.toNat_lt
  unfold NaiveDate.fromYmdOpt Spec.realDate
  constructor
  · rintro ⟨h1, h2, h3, h4⟩
    rw [if_pos ⟨by omega, by omega, h1, h2, h3, by rw [daysInMonth_eq _ _ h1 h2]; exact h4⟩]
  · intro h
    rw [if_neg]
    rintro ⟨-, -, h1, h2, h3, h4⟩
    exact h ⟨h1, h2, h3, by rwa [← daysInMonth_eq _ _ h1 h2]⟩

/-- A database date or datetime becomes a date exactly if it is a real calendar date, and then this
one; otherwise it is rejected. -/
theorem C26_read_date (y : UInt16) (m d h mi s : UInt8) (us : UInt32) :
    (Spec.realDate y.toNat m.toNat d.toNat →
      valueIntoDate (.date y m d) = .ok ⟨y.toNat, m.toNat, d.toNat⟩ ∧
      valueIntoDate (.datetime y m d h mi s us) = .ok ⟨y.toNat, m.toNat, d.toNat⟩) ∧
    (¬Spec.realDate y.toNat m.toNat d.toNat →
      valueIntoDate (.date y m d) = .err (.valueOutOfBounds (.date y m d)) ∧
      valueIntoDate (.datetime y m d h mi s us)
        = .err (.valueOutOfBounds (.datetime y m d h mi s us))) := by
  obtain ⟨h1, h2⟩ := fromYmdOpt_eq y m.toNat d.toNat
  constructor
  · intro hr
    simp [valueIntoDate, h1 hr]
  · intro hr
    simp [valueIntoDate, h2 hr]

/-- a time of day, with the leap second that the library represents as an over-long 59th second. -/
def Spec.realTime (h m s us : Nat) : Prop :=
  h < 24 ∧ m < 60 ∧ s < 60 ∧ (us < 1000000 ∨ (s = 59 ∧ us < 2000000))

/-- A database datetime becomes a datetime exactly if its date and its time of day are real, and
then with the same components; otherwise it is rejected, never clamped or wrapped. -/
theorem C26_read_datetime (y : UInt16) (mo d h m s : UInt8) (us : UInt32) :
    (Spec.realDate y.toNat mo.toNat d.toNat ∧ Spec.realTime h.toNat m.toNat s.toNat us.toNat →
      valueIntoDatetime (.datetime y mo d h m s us)
        = .ok ⟨⟨y.toNat, mo.toNat, d.toNat⟩, ⟨h.toNat, m.toNat, s.toNat, us.toNat * 1000⟩⟩) ∧
    (¬(Spec.realDate y.toNat mo.toNat d.toNat ∧ Spec.realTime h.toNat m.toNat s.toNat us.toNat) →
      valueIntoDatetime (.datetime y mo d h m s us)
        = .err (.valueOutOfBounds (.datetime y mo d h m s us))) := by
  obtain ⟨h1, h2⟩ := fromYmdOpt_eq y mo.toNat d.toNat
  have time : (Spec.realTime h.toNat m.toNat s.toNat us.toNat →
        NaiveTime.fromHmsMicroOpt h.toNat m.toNat s.toNat us.toNat
          = some ⟨h.toNat, m.toNat, s.toNat, us.toNat * 1000⟩) ∧
      (¬Spec.realTime h.toNat m.toNat s.toNat us.toNat →
        NaiveTime.fromHmsMicroOpt h.toNat m.toNat s.toNat us.toNat = none) := by
    unfold NaiveTime.fromHmsMicroOpt NaiveTime.fromHmsNanoOpt Spec.realTime
    constructor
    · intro ht
      rw [if_neg (by omega), if_neg (by omega)]
    · intro ht
      by_cases hb : 2 ^ 32 ≤ us.toNat * 1000
      · rw [if_pos hb]
      · rw [if_neg hb, if_pos (by omega)]
  constructor
  · rintro ⟨hd, ht⟩
    simp [valueIntoDatetime, h1 hd, time.1 ht]
  · intro hn
    by_cases hd : Spec.realDate y.toNat mo.toNat d.toNat
    · have ht : ¬Spec.realTime h.toNat m.toNat s.toNat us.toNat := fun ht => hn ⟨hd, ht⟩
      simp [valueIntoDatetime, h1 hd, time.2 ht]
    · simp [valueIntoDatetime, h2 hd]

theorem NaiveDate.valid_bounds {d : NaiveDate} (h : d.Valid) :
    1 ≤ d.month ∧ d.month ≤ 12 ∧ 1 ≤ d.day ∧ d.day ≤ 31 := by
  unfold NaiveDate.Valid NaiveDate.fromYmdOpt at h
  split at h
  · rename_i hc
    refine ⟨hc.2.2.1, hc.2.2.2.1, hc.2.2.2.2.1, Nat.le_trans hc.2.2.2.2.2 ?_⟩
    unfold daysInMonth
    repeat' split
    all_goals omega
  · cases h

/-- A date with a year from 0 to 65535 survives; any other year is rejected. -/
theorem C26_date_round_trip (d : NaiveDate) (hv : d.Valid) :
    (0 ≤ d.year ∧ d.year ≤ 65535 → ∃ v, dateIntoValue d = .ok v ∧ valueIntoDate v = .ok d) ∧
    (¬(0 ≤ d.year ∧ d.year ≤ 65535) → dateIntoValue d = .err (.invalidValue .date)) := by
  obtain ⟨hm1, hm2, hd1, hd2⟩ := NaiveDate.valid_bounds hv
  unfold dateIntoValue yearToU16
  constructor
  · intro hy
    rw [if_pos hy]
    refine ⟨_, rfl, ?_⟩
    simp only [valueIntoDate]
    rw [uint16_toNat_ofNat_of_lt (by omega), uint8_toNat_ofNat_of_lt (by omega),
      uint8_toNat_ofNat_of_lt (by omega), Int.toNat_of_nonneg hy.1, hv]
    rfl
  · intro hy
    rw [if_neg hy]

/-- A datetime with such a year, a whole number of microseconds, and not in a leap second that
follows another second than the 59th, survives; any other year is rejected. -/
theorem C26_datetime_round_trip (d : NaiveDateTime) (hd : d.date.Valid) (ht : d.time.Valid) :
    (0 ≤ d.date.year ∧ d.date.year ≤ 65535 → d.time.nano % 1000 = 0 →
      (d.time.nano < 1000000000 ∨ d.time.second = 59) →
      ∃ v, datetimeIntoValue d = .ok v ∧ valueIntoDatetime v = .ok d) ∧
    (¬(0 ≤ d.date.year ∧ d.date.year ≤ 65535) →
      datetimeIntoValue d = .err (.invalidValue .datetime)) := by
  obtain ⟨hm1, hm2, hd1, hd2⟩ := NaiveDate.valid_bounds hd
  obtain ⟨t1, t2, t3, t4⟩ := ht
  unfold datetimeIntoValue yearToU16
  constructor
  · intro hy hn hl
    rw [if_pos hy]
    refine ⟨_, rfl, ?_⟩
    simp only [valueIntoDatetime]
    rw [uint16_toNat_ofNat_of_lt (by omega), uint8_toNat_ofNat_of_lt (by omega),
      uint8_toNat_ofNat_of_lt (by omega), Int.toNat_of_nonneg hy.1, hd,
      uint8_toNat_ofNat_of_lt (by omega), uint8_toNat_ofNat_of_lt (by omega),
      uint8_toNat_ofNat_of_lt (by omega), uint32_toNat_ofNat_of_lt (by omega)]
    have e : NaiveTime.fromHmsMicroOpt d.time.hour d.time.minute d.time.second (d.time.nano / 1000)
        = some d.time := by
      unfold NaiveTime.fromHmsMicroOpt NaiveTime.fromHmsNanoOpt
      have hk : d.time.nano / 1000 * 1000 = d.time.nano := by omega
      rw [hk, if_neg (by omega), if_neg (by omega)]
    rw [e]
  · intro hy
    rw [if_neg hy]

/-- what becomes of every date with time whose year fits: the parts of a second below a microsecond are cut off, and a leap
second that is not the 60th of its minute can be written but is refused when it is read.  So it survives exactly if it is of
whole microseconds and not such a leap second. -/
theorem C26_datetime_exact (d : NaiveDateTime) (hd : d.date.Valid) (ht : d.time.Valid)
    (hy : 0 ≤ d.date.year ∧ d.date.year ≤ 65535) :
    ∃ v, datetimeIntoValue d = .ok v ∧
      (d.time.nano < 1000000000 ∨ d.time.second = 59 →
        valueIntoDatetime v = .ok ⟨d.date, { d.time with nano := d.time.nano / 1000 * 1000 }⟩) ∧
      (¬(d.time.nano < 1000000000 ∨ d.time.second = 59) → valueIntoDatetime v = .err (.valueOutOfBounds v)) ∧
      (valueIntoDatetime v = .ok d ↔ d.time.nano % 1000 = 0 ∧ (d.time.nano < 1000000000 ∨ d.time.second = 59)) := by
  obtain ⟨hm1, hm2, hd1, hd2⟩ := NaiveDate.valid_bounds hd
  obtain ⟨t1, t2, t3, t4⟩ := ht
  unfold datetimeIntoValue yearToU16
  rw [if_pos hy]
  refine ⟨_, rfl, ?_⟩
  simp only [valueIntoDatetime]
  rw [uint16_toNat_ofNat_of_lt (by omega), uint8_toNat_ofNat_of_lt (by omega),
    uint8_toNat_ofNat_of_lt (by omega), Int.toNat_of_nonneg hy.1, hd,
    uint8_toNat_ofNat_of_lt (by omega), uint8_toNat_ofNat_of_lt (by omega),
    uint8_toNat_ofNat_of_lt (by omega), uint32_toNat_ofNat_of_lt (by omega)]
  by_cases hl : d.time.nano < 1000000000 ∨ d.time.second = 59
  · have e : NaiveTime.fromHmsMicroOpt d.time.hour d.time.minute d.time.second (d.time.nano / 1000)
        = some { d.time with nano := d.time.nano / 1000 * 1000 } := by
      unfold NaiveTime.fromHmsMicroOpt NaiveTime.fromHmsNanoOpt
      rw [if_neg (by omega), if_neg (by omega)]
    rw [e]
    refine ⟨fun _ => rfl, fun h => absurd hl h, ?_⟩
    obtain ⟨date, ⟨hour, minute, second, nano⟩⟩ := d
    simp only [Out.ok.injEq, NaiveDateTime.mk.injEq, NaiveTime.mk.injEq, true_and] at *
    omega
  · have e : NaiveTime.fromHmsMicroOpt d.time.hour d.time.minute d.time.second (d.time.nano / 1000) = none := by
      unfold NaiveTime.fromHmsMicroOpt NaiveTime.fromHmsNanoOpt
      rw [if_neg (by omega), if_pos (by omega)]
    rw [e]
    exact ⟨fun h => absurd h hl, fun _ => rfl, fun h => (by cases h), fun h => absurd h.2 hl⟩

example : valueIntoDatetime (.datetime 2024 2 29 12 30 15 1500000)
    = .err (.valueOutOfBounds (.datetime 2024 2 29 12 30 15 1500000)) := by decide

/-- Values of other kinds are rejected. -/
theorem C26_other_kinds (v : Value) :
    ((∀ y m d, v ≠ .date y m d) → (∀ y mo d h m s us, v ≠ .datetime y mo d h m s us) →
      valueIntoDate v = .err (.wrongValue .date v)) ∧
    ((∀ y mo d h m s us, v ≠ .datetime y mo d h m s us) →
      valueIntoDatetime v = .err (.wrongValue .datetime v)) := by
  constructor
  · intro h1 h2
    cases v <;> first | rfl | exact absurd rfl (h1 _ _ _) | exact absurd rfl (h2 _ _ _ _ _ _ _)
  · intro h2
    cases v <;> first | rfl | exact absurd rfl (h2 _ _ _ _ _ _ _)

example : valueIntoDate (.date 2023 2 29) = .err (.valueOutOfBounds (.date 2023 2 29)) := by decide
example : valueIntoDate (.date 2024 2 29) = .ok ⟨2024, 2, 29⟩ := by decide
example : valueIntoDate (.date 0 0 0) = .err (.valueOutOfBounds (.date 0 0 0)) := by decide
example : valueIntoDatetime (.datetime 1900 2 28 23 59 59 999999)
    = .ok ⟨⟨1900, 2, 28⟩, ⟨23, 59, 59, 999999000⟩⟩ := by decide

example : dateIntoValue ⟨2024, 2, 29⟩ = .ok (.date 2024 2 29) ∧
    dateIntoValue ⟨-1, 2, 28⟩ = .err (.invalidValue .date) ∧
    datetimeIntoValue ⟨⟨2016, 12, 31⟩, ⟨23, 59, 59, 1500000000⟩⟩ = .ok (.datetime 2016 12 31 23 59 59 1500000) ∧
    valueIntoDatetime (.datetime 2016 12 31 23 59 59 1500000)
      = .ok ⟨⟨2016, 12, 31⟩, ⟨23, 59, 59, 1500000000⟩⟩ := by decide +kernel

end Verif

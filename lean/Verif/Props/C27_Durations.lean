import Verif.Model.Convert
import Verif.Proofs.Utf8

/-! # C27 — durations convert with sign and microseconds -/

namespace Verif

/-- microseconds denoted by a TIME value. -/
def Spec.timeMicros (neg : Bool) (days h m s us : Nat) : Int :=
  (if neg then -1 else 1) *
    ((days : Int) * 86400000000 + h * 3600000000 + m * 60000000 + s * 1000000 + us)

/-- nanoseconds of a duration. -/
def Spec.durationNanos (d : Duration) : Int := d.secs * 1000000000 + d.nanos

/-- Every TIME value whose microseconds are below one million converts to exactly the amount it
denotes; with more microseconds it is rejected. -/
theorem C27_from_time (neg : Bool) (days : UInt32) (h m s : UInt8) (us : UInt32) :
    (us.toNat < 1000000 → ∃ d, valueIntoDuration (.time neg days h m s us) = .ok d ∧ d.Valid ∧
      Spec.durationNanos d
        = 1000 * Spec.timeMicros neg days.toNat h.toNat m.toNat s.toNat us.toNat) ∧
    (1000000 ≤ us.toNat → valueIntoDuration (.time neg days h m s us)
      = .err (.valueOutOfBounds (.time neg days h m s us))) := by
  have hd := days.toNat_lt
  have hh := h.toNat_lt
  have hm := m.toNat_lt
  have hs := s.toNat_lt
  constructor
  · intro hu
    have new : ∀ (x : Int) (n : Nat), -9223372036854776 < x → x < 9223372036854775 → n < 1000000000 →
        Duration.new x n = some ⟨x, n⟩ := by
      intro x n h1 h2 h3
      unfold Duration.new
      rw [if_neg (by omega)]
    simp only [valueIntoDuration]
    rw [if_neg (by omega)]
    unfold Spec.timeMicros Spec.durationNanos Duration.Valid
    cases neg with
    | false =>
      have k := new ((((days.toNat : Int) * 24 + h.toNat) * 60 + m.toNat) * 60 + s.toNat)
        (us.toNat * 1000) (by omega) (by omega) (by omega)
      simp only [Bool.false_eq_true, if_false]
      rw [k]
      refine ⟨_, rfl, k, ?_⟩
      dsimp only
      omega
    | true =>
      simp only [if_true]
      by_cases h0 : us = 0
      · subst h0
        rw [if_neg (by simp)]
        have k := new (((((days.toNat : Int) * 24 + h.toNat) * 60 + m.toNat) * 60 + s.toNat) * -1) 0
          (by omega) (by omega) (by omega)
        dsimp only
        rw [k]
        refine ⟨_, rfl, k, ?_⟩
        dsimp only
        have : (0 : UInt32).toNat = 0 := rfl
        omega
      · rw [if_pos h0]
        have hpos : 0 < us.toNat := by
          rcases Nat.eq_zero_or_pos us.toNat with h | h
          · exact absurd (UInt32.toNat_inj.1 (by simpa using h)) h0
          · exact h
        have k := new (((((days.toNat : Int) * 24 + h.toNat) * 60 + m.toNat) * 60 + s.toNat) * -1 - 1)
          ((1000000 - us.toNat) * 1000) (by omega) (by omega) (by omega)
        dsimp only
        rw [k]
        refine ⟨_, rfl, k, ?_⟩
        dsimp only
        omega
  · intro hu
    simp only [valueIntoDuration]
    rw [if_pos hu]

/-- The 64-bit arithmetic of the conversion cannot overflow. -/
theorem C27_no_overflow (days : UInt32) (h m s : UInt8) :
    ((((days.toNat : Int) * 24 + h.toNat) * 60 + m.toNat) * 60 + s.toNat) + 1 < 2 ^ 63 := by
  have hd := days.toNat_lt
  have hh := h.toNat_lt
  have hm := m.toNat_lt
  have hs := s.toNat_lt
  omega

/-- A duration of whole microseconds, of less than 2^32 days, and not strictly between -1 s and 0,
converts to a TIME value that denotes the same amount.
Missing: the two excluded cases (`C27_sign_violated`, `C27_days_violated`). -/
theorem C27_to_time_partial (d : Duration) (hv : d.Valid) (hn : d.nanos % 1000 = 0)
    (hs : Spec.durationNanos d ≤ -1000000000 ∨ 0 ≤ Spec.durationNanos d)
    (hd : -(2 ^ 32 * 86400) < d.secs ∧ d.secs < 2 ^ 32 * 86400) :
    ∃ neg days h m s us, durationIntoValue d = .time neg days h m s us ∧
      h.toNat < 24 ∧ m.toNat < 60 ∧ s.toNat < 60 ∧ us.toNat < 1000000 ∧
      1000 * Spec.timeMicros neg days.toNat h.toNat m.toNat s.toNat us.toNat
        = Spec.durationNanos d := by
  have hlt : d.nanos < 1000000000 := by
    unfold Duration.Valid Duration.new at hv
    split at hv
    · cases hv
    · rename_i h; omega
  unfold Spec.durationNanos at hs
  unfold durationIntoValue Spec.durationNanos
  dsimp only
  generalize hS : d.numSeconds = S
  generalize hN : d.subsecNanos = N
  unfold Duration.numSeconds at hS
  unfold Duration.subsecNanos at hN
  have key : d.secs * 1000000000 + d.nanos = S * 1000000000 + N ∧ N.natAbs < 1000000000 ∧
      N.natAbs % 1000 = 0 ∧ (S < 0 → N ≤ 0) ∧ (0 ≤ S → 0 ≤ N) ∧ S.natAbs < 2 ^ 32 * 86400 := by
    by_cases hc : d.secs < 0 ∧ 0 < d.nanos
    · rw [if_pos hc] at hS hN
      omega
    · rw [if_neg hc] at hS hN
      omega
  obtain ⟨k1, k2, k3, k4, k5, k6⟩ := key
  refine ⟨_, _, _, _, _, _, rfl, ?_⟩
  rw [uint32_toNat_ofNat_of_lt (by omega), uint8_toNat_ofNat_of_lt (by omega),
    uint8_toNat_ofNat_of_lt (by omega), uint8_toNat_ofNat_of_lt (by omega),
    uint32_toNat_ofNat_of_lt (by omega)]
  refine ⟨by omega, by omega, by omega, by omega, ?_⟩
  rw [k1]
  unfold Spec.timeMicros
  by_cases hneg : S < 0
  · have := k4 hneg
    rw [decide_eq_true hneg]
    simp only [if_true]
    omega
  · have := k5 (by omega)
    rw [decide_eq_false hneg]
    simp only [Bool.false_eq_true, if_false]
    omega

/-- Half a second before zero becomes half a second after zero. -/
theorem C27_sign_violated :
    (Duration.mk (-1) 500000000).Valid ∧
    durationIntoValue ⟨-1, 500000000⟩ = .time false 0 0 0 0 500000 ∧
    valueIntoDuration (durationIntoValue ⟨-1, 500000000⟩) = .ok ⟨0, 500000000⟩ := by
  refine ⟨?_, ?_, ?_⟩ <;> decide

/-- 2^32 days become no days at all. -/
theorem C27_days_violated :
    (Duration.mk (2 ^ 32 * 86400) 0).Valid ∧
    durationIntoValue ⟨2 ^ 32 * 86400, 0⟩ = .time false 0 0 0 0 0 := by
  constructor <;> decide

/-- TIME values in their normal form survive the way to a duration and back. -/
theorem C27_round_trip_partial (neg : Bool) (days : UInt32) (h m s : UInt8) (us : UInt32)
    (hh : h.toNat < 24) (hm : m.toNat < 60) (hs : s.toNat < 60) (hu : us.toNat < 1000000)
    (hz : neg = true → 0 < days.toNat + h.toNat + m.toNat + s.toNat) :
    ∃ d, valueIntoDuration (.time neg days h m s us) = .ok d ∧
      durationIntoValue d = .time neg days h m s us := by
  have hd := days.toNat_lt
  obtain ⟨d, h1, hv, h2⟩ := (C27_from_time neg days h m s us).1 hu
  refine ⟨d, h1, ?_⟩
  have hlt : d.nanos < 1000000000 := by
    unfold Duration.Valid Duration.new at hv
    split at hv
    · cases hv
    · rename_i h; omega
  have e : ∀ {neg' : Bool} {S N : Nat}, neg' = neg →
      S = ((days.toNat * 24 + h.toNat) * 60 + m.toNat) * 60 + s.toNat → N = us.toNat * 1000 →
      Value.time neg' (UInt32.ofNat (S / 60 / 60 / 24)) (UInt8.ofNat (S / 60 / 60 % 24))
        (UInt8.ofNat (S / 60 % 60)) (UInt8.ofNat (S % 60)) (UInt32.ofNat (N / 1000))
        = .time neg days h m s us := by
    rintro neg' S N rfl hS rfl
    have e1 : S / 60 / 60 / 24 = days.toNat := by omega
    have e2 : S / 60 / 60 % 24 = h.toNat := by omega
    have e3 : S / 60 % 60 = m.toNat := by omega
    have e4 : S % 60 = s.toNat := by omega
    have e5 : us.toNat * 1000 / 1000 = us.toNat := by omega
    rw [e1, e2, e3, e4, e5]
    simp
  unfold Spec.timeMicros Spec.durationNanos at h2
  unfold durationIntoValue
  dsimp only
  generalize hS : d.numSeconds = S
  generalize hN : d.subsecNanos = N
  unfold Duration.numSeconds at hS
  unfold Duration.subsecNanos at hN
  cases neg with
  | false =>
    simp only [Bool.false_eq_true, if_false] at h2
    have hc : ¬(d.secs < 0 ∧ 0 < d.nanos) := by omega
    rw [if_neg hc] at hS hN
    apply e
    · exact decide_eq_false (by omega)
    · omega
    · omega
  | true =>
    have := hz rfl
    simp only [if_true] at h2
    apply e
    · apply decide_eq_true
      split at hS <;> omega
    · split at hS <;> omega
    · split at hN <;> omega

example : valueIntoDuration (.time true 0 0 0 5 200000) = .ok ⟨-6, 800000000⟩ := by decide
example : durationIntoValue ⟨-6, 800000000⟩ = .time true 0 0 0 5 200000 := by decide

end Verif

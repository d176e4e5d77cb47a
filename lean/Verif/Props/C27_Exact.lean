import Verif.Props.C27_Durations
import Mathlib.Tactic.Ring
import Mathlib.Tactic.NormNum

/-!
# C27 — exactly which durations survive being stored
-/

namespace Verif

theorem wrapped_micros (S N : Nat) (hN : N < 1000000000) :
    (S * 1000000000 + N) / 1000 % (2 ^ 32 * 86400 * 1000000) =
      ((((S / 60 / 60 / 24 % 2 ^ 32) * 24 + S / 60 / 60 % 24) * 60 + S / 60 % 60) * 60 + S % 60) * 1000000 + N / 1000 := by
  have h1 : (S * 1000000000 + N) / 1000 = S * 1000000 + N / 1000 := by omega
  have h2 : (((S / 60 / 60 / 24 % 2 ^ 32) * 24 + S / 60 / 60 % 24) * 60 + S / 60 % 60) * 60 + S % 60 = S % (2 ^ 32 * 86400) := by
    have hA : S % (2 ^ 32 * 86400) = S % 86400 + 86400 * (S / 86400 % 2 ^ 32) := by
      rw [show 2 ^ 32 * 86400 = 86400 * 2 ^ 32 by norm_num, Nat.mod_mul]
    have hB : S / 60 / 60 / 24 = S / 86400 := by rw [Nat.div_div_eq_div_mul, Nat.div_div_eq_div_mul]
    rw [hA, hB]
    generalize S / 86400 % 2 ^ 32 = D
    omega
  rw [h2, h1]
  have hu : N / 1000 < 1000000 := by omega
  generalize N / 1000 = u at hu
  rw [show 2 ^ 32 * 86400 * 1000000 = 1000000 * (2 ^ 32 * 86400) by norm_num, Nat.mod_mul]
  clear h1 h2 hN
  have e1 : (S * 1000000 + u) / 1000000 = S := by
    rw [Nat.mul_comm, Nat.mul_add_div (by norm_num), Nat.div_eq_of_lt hu, Nat.add_zero]
  have e2 : (S * 1000000 + u) % 1000000 = u := by
    rw [Nat.mul_comm, Nat.mul_add_mod, Nat.mod_eq_of_lt hu]
  rw [e1, e2, Nat.mul_comm, Nat.add_comm]

/-- what every duration is written as: whole microseconds towards zero, without its sign if it is less than a second, and
without multiples of 2^32 days. -/
theorem C27_written_partial (d : Duration) (hv : d.Valid) :
    ∃ neg days h m s us, durationIntoValue d = .time neg days h m s us ∧
      h.toNat < 24 ∧ m.toNat < 60 ∧ s.toNat < 60 ∧ us.toNat < 1000000 ∧
      Spec.timeMicros neg days.toNat h.toNat m.toNat s.toNat us.toNat =
        (if Spec.durationNanos d ≤ -1000000000 then -1 else 1) *
          (((Spec.durationNanos d).natAbs / 1000 % (2 ^ 32 * 86400 * 1000000) : Nat) : Int) := by
  have hlt : d.nanos < 1000000000 := by
    unfold Duration.Valid Duration.new at hv
    split at hv
    · cases hv
    · rename_i h; omega
  unfold durationIntoValue Spec.durationNanos
  dsimp only
  generalize hS : d.numSeconds = S
  generalize hN : d.subsecNanos = N
  unfold Duration.numSeconds at hS
  unfold Duration.subsecNanos at hN
  have key : d.secs * 1000000000 + d.nanos = S * 1000000000 + N ∧ N.natAbs < 1000000000 ∧
      (S < 0 → N ≤ 0) ∧ (0 < S → 0 ≤ N) := by
    by_cases hc : d.secs < 0 ∧ 0 < d.nanos
    · rw [if_pos hc] at hS hN
      omega
    · rw [if_neg hc] at hS hN
      omega
  obtain ⟨k1, k2, k3, k4⟩ := key
  rw [k1]
  clear k1 hS hN
  have habs : (S * 1000000000 + N).natAbs = S.natAbs * 1000000000 + N.natAbs := by omega
  have hsign : S * 1000000000 + N ≤ -1000000000 ↔ S < 0 := by omega
  rw [habs]
  refine ⟨_, _, _, _, _, _, rfl, ?_⟩
  have hu : (UInt32.ofNat (N.natAbs / 1000)).toNat = N.natAbs / 1000 := uint32_toNat_ofNat_of_lt (by omega)
  rw [hu, UInt32.toNat_ofNat', uint8_toNat_ofNat_of_lt (by omega), uint8_toNat_ofNat_of_lt (by omega),
    uint8_toNat_ofNat_of_lt (by omega)]
  refine ⟨by omega, by omega, by omega, by omega, ?_⟩
  unfold Spec.timeMicros
  rw [wrapped_micros _ _ k2]
  by_cases hneg : S < 0
  · rw [decide_eq_true hneg, if_pos (hsign.2 hneg)]
    simp only [if_true]
    push_cast
    ring
  · rw [decide_eq_false hneg, if_neg (fun h => hneg (hsign.1 h))]
    simp only [Bool.false_eq_true, if_false]
    push_cast
    ring

/-- durations that exist and are of the same length are the same. -/
theorem durationNanos_inj {a b : Duration} (ha : a.Valid) (hb : b.Valid) (h : Spec.durationNanos a = Spec.durationNanos b) :
    a = b := by
  have lt : ∀ {d : Duration}, d.Valid → d.nanos < 1000000000 := by
    intro d hv
    unfold Duration.Valid Duration.new at hv
    split at hv
    · cases hv
    · rename_i h; omega
  have := lt ha
  have := lt hb
  unfold Spec.durationNanos at h
  cases a
  cases b
  simp only [Duration.mk.injEq] at *
  omega

/-- **C27**, exactly what holds: a duration survives being stored if and only if it is a whole number of microseconds, not
between minus one second and zero, and shorter than 2^32 days; and it can always be read back as some duration. -/
theorem C27_survives_partial (d : Duration) (hv : d.Valid) :
    (∃ d', valueIntoDuration (durationIntoValue d) = .ok d') ∧
    (valueIntoDuration (durationIntoValue d) = .ok d ↔
      Spec.durationNanos d % 1000 = 0 ∧ (Spec.durationNanos d ≤ -1000000000 ∨ 0 ≤ Spec.durationNanos d) ∧
        (Spec.durationNanos d).natAbs < 2 ^ 32 * 86400 * 1000000000) := by
  obtain ⟨neg, days, h, m, s, us, e, -, -, -, hu, hm⟩ := C27_written_partial d hv
  obtain ⟨d', h1, hv', h2⟩ := (C27_from_time neg days h m s us).1 hu
  rw [e, h1]
  refine ⟨⟨d', rfl⟩, ?_⟩
  rw [hm] at h2
  have hiff : Out.ok (ε := ParseError) d' = .ok d ↔ Spec.durationNanos d' = Spec.durationNanos d :=
    ⟨fun h => (by cases h; rfl), fun h => by rw [durationNanos_inj hv' hv h]⟩
  rw [hiff, h2]
  generalize Spec.durationNanos d = n
  by_cases hn : n ≤ -1000000000
  · rw [if_pos hn]; omega
  · rw [if_neg hn]; omega

/-- a quarter of a second, and 1.000001 s before zero survive; half a microsecond does not. -/
example : valueIntoDuration (durationIntoValue ⟨0, 250000000⟩) = .ok ⟨0, 250000000⟩ ∧
    valueIntoDuration (durationIntoValue ⟨-2, 999999000⟩) = .ok ⟨-2, 999999000⟩ ∧
    valueIntoDuration (durationIntoValue ⟨0, 500⟩) = .ok ⟨0, 0⟩ := by
  refine ⟨?_, ?_, ?_⟩ <;> decide

end Verif

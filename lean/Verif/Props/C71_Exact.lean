import Verif.Props.C71_Typed
import Verif.Props.C27_Exact

/-! # C71 — exactly which durations and datetimes come back from a server unchanged -/

namespace Verif

/-- a duration comes back as it was given, from every server that returns the meaning of what it was sent, exactly if it is of
whole microseconds, not strictly between minus one second and zero, and shorter than 2^32 days. -/
theorem C71_duration_partial (d : Duration) (hv : d.Valid) :
    (∃ v, RustTy.duration.into d = .ok v ∧ ∀ w, Spec.meaning w = Spec.meaning v → RustTy.duration.back w = .ok d) ↔
      Spec.durationNanos d % 1000 = 0 ∧ (Spec.durationNanos d ≤ -1000000000 ∨ 0 ≤ Spec.durationNanos d) ∧
        (Spec.durationNanos d).natAbs < 2 ^ 32 * 86400 * 1000000000 := by
  rw [← (C27_survives_partial d hv).2]
  constructor
  · rintro ⟨v, h1, h2⟩
    have e : v = durationIntoValue d := by cases h1; rfl
    subst e
    exact h2 _ rfl
  · intro h
    exact ⟨durationIntoValue d, rfl, fun w hw => back_meaning .duration _ w hw.symm d h⟩

/-- a datetime with a year that fits comes back as it was given exactly if it is of whole microseconds and no leap second
after another second than the 59th. -/
theorem C71_datetime_partial (d : NaiveDateTime) (hd : d.date.Valid) (ht : d.time.Valid) :
    (∃ v, RustTy.datetime.into d = .ok v ∧ ∀ w, Spec.meaning w = Spec.meaning v → RustTy.datetime.back w = .ok d) ↔
      (0 ≤ d.date.year ∧ d.date.year ≤ 65535) ∧ d.time.nano % 1000 = 0 ∧
        (d.time.nano < 1000000000 ∨ d.time.second = 59) := by
  by_cases hy : 0 ≤ d.date.year ∧ d.date.year ≤ 65535
  · obtain ⟨v, h1, -, -, h2⟩ := C26_datetime_exact d hd ht hy
    constructor
    · rintro ⟨v', h3, h4⟩
      have e : v' = v := by
        have : RustTy.datetime.into d = .ok v := h1
        rw [h3] at this
        cases this
        rfl
      subst e
      exact ⟨hy, h2.1 (h4 _ rfl)⟩
    · rintro ⟨-, h⟩
      exact ⟨v, h1, fun w hw => back_meaning .datetime _ w hw.symm d (h2.2 h)⟩
  · constructor
    · rintro ⟨v, h1, -⟩
      have : RustTy.datetime.into d = .err (.invalidValue .datetime) := (C26_datetime_round_trip d hd ht).2 hy
      rw [h1] at this
      cases this
    · rintro ⟨h, -⟩
      exact absurd h hy

/-- minus a second and a half comes back, minus half a second does not. -/
example : (Spec.durationNanos ⟨-2, 500000000⟩ = -1500000000 ∧
    RustTy.duration.back (.time true 0 0 0 1 500000) = .ok (⟨-2, 500000000⟩ : Duration)) ∧
    RustTy.duration.into (⟨-1, 500000000⟩ : Duration) = .ok (.time false 0 0 0 0 500000) := by
  refine ⟨⟨by decide, ?_⟩, ?_⟩ <;> rfl

end Verif

import Verif.Props.C23_DisplayValue
import Verif.Props.C74_TextExact

/-! # C23 — exactly which displayed times and datetimes are read back -/

namespace Verif

theorem length_pad_le (k n : Nat) (hn : n < 10 ^ 10) : (Spec.pad k n).length ≤ k + 10 := by
  have := length_dec_le 10 n (by omega) hn
  rw [Spec.pad, List.length_append, List.length_replicate]
  omega

theorem length_textClock_le (h us : UInt32) (m s : UInt8) :
    (Spec.textClock h.toNat m.toNat s.toNat (fracDigits us) us.toNat).length ≤ 60 := by
  have a := length_pad_le 2 h.toNat (by have := h.toNat_lt; omega)
  have b := length_pad_le 2 m.toNat (by have := m.toNat_lt; omega)
  have c := length_pad_le 2 s.toNat (by have := s.toNat_lt; omega)
  have d : (Spec.textFrac (fracDigits us) us.toNat).length ≤ 17 := by
    unfold Spec.textFrac
    split
    · exact Nat.zero_le _
    · rename_i hne
      have e : fracDigits us = 6 := by
        unfold fracDigits at hne ⊢
        by_cases h0 : us ≠ 0
        · rw [if_pos h0]
        · rw [if_neg h0] at hne
          exact absurd rfl hne
      rw [e]
      have := length_pad_le 6 (us.toNat / 10 ^ (6 - 6)) (by have := us.toNat_lt; simp; omega)
      simp only [List.length_append, List.length_singleton]
      omega
  unfold Spec.textClock
  simp only [List.length_append, List.length_singleton]
  omega

theorem clock_bounds {bs : Bytes} {h m s us : Nat} (hl : bs.length ≤ 100) (hc : Spec.Clock bs h m s us) :
    m < 100 ∧ s < 100 ∧ us < 10 ^ 6 := by
  obtain ⟨hd, md, sd, f, -, -, lm, nm, ls, ns, hf, rfl⟩ := hc
  have a := numeral_lt nm
  have b := numeral_lt ns
  rw [lm] at a
  rw [ls] at b
  refine ⟨a, b, ?_⟩
  simp only [List.length_append, List.length_singleton] at hl
  cases hf with
  | none => decide
  | any => decide
  | digits f n hn hle =>
    have c := numeral_lt hn
    calc n * 10 ^ (6 - f.length) < 10 ^ f.length * 10 ^ (6 - f.length) :=
          Nat.mul_lt_mul_of_pos_right c (Nat.pow_pos (by decide))
      _ = 10 ^ 6 := by rw [← Nat.pow_add]; congr 1; omega
  | wrapped f n k hn hge =>
    simp only [List.length_cons] at hl
    omega

theorem day_bounds {bs : Bytes} {y m d : Nat} (h : Spec.Day bs y m d) : y < 10000 ∧ m < 100 ∧ d < 100 := by
  obtain ⟨yd, md, dd, ly, ny, lm, nm, ld, nd, -⟩ := h
  have a := numeral_lt ny
  have b := numeral_lt nm
  have c := numeral_lt nd
  rw [ly] at a
  rw [lm] at b
  rw [ld] at c
  exact ⟨a, b, c⟩

/-- Times, exactly: one is displayed and read back from what is displayed if and only if its hours fit 32 bits together with
its days, the hours are below 24, minutes and seconds below 100 and microseconds below a million. -/
theorem C23_time_exact_partial (ff : FloatFmt) (neg : Bool) (days : UInt32) (h m s : UInt8) (us : UInt32) :
    (∃ content, display ff (.time neg days h m s us) = .ok (['"'] ++ content ++ ['"']) ∧
      timeText (utf8 content) = .ok (.time neg days h m s us)) ↔
    days.toNat * 24 + h.toNat < 2 ^ 32 ∧ h.toNat < 24 ∧ m.toNat < 100 ∧ s.toNat < 100 ∧ us.toNat < 10 ^ 6 := by
  constructor
  · rintro ⟨content, h1, h2⟩
    dsimp only [display] at h1
    split at h1
    · rename_i hd
      rw [Out.ok.injEq, List.append_assoc ['"']] at h1
      have e := List.append_cancel_left (List.append_cancel_right h1)
      obtain ⟨n', d', h', m', s', us', ev, hh, clock, hc, hb⟩ := (timeText_ok _ _).1 h2
      injection ev with e1 e2 e3 e4 e5 e6
      subst e1 e2 e3 e4 e5 e6
      refine ⟨hd, hh, clock_bounds ?_ hc⟩
      have l1 := congrArg List.length hb
      rw [← e, utf8_append, utf8_formatTime, List.length_append, List.length_append] at l1
      have l2 := length_textClock_le (UInt32.ofNat (days.toNat * 24 + h.toNat)) us m s
      have l3 : (utf8 (if neg then ['-'] else [])).length ≤ 1 := by cases neg <;> decide
      omega
    · cases h1
  · rintro ⟨hd, hh, hm, hs, hu⟩
    exact C23_time_partial ff neg days h m s us hd hh hm hs hu

/-- Datetimes, exactly. -/
theorem C23_datetime_exact_partial (ff : FloatFmt) (y : UInt16) (mo d h m s : UInt8) (us : UInt32) :
    (∃ content, display ff (.datetime y mo d h m s us) = .ok (['"'] ++ content ++ ['"']) ∧
      datetimeText (utf8 content) = .ok (.datetime y mo d h m s us)) ↔
    y.toNat < 10000 ∧ mo.toNat < 100 ∧ d.toNat < 100 ∧ h.toNat < 24 ∧ m.toNat < 100 ∧ s.toNat < 100 ∧
      us.toNat < 10 ^ 6 := by
  constructor
  · rintro ⟨content, h1, h2⟩
    have h0 : display ff (.datetime y mo d h m s us) =
        .ok (['"'] ++ (formatDate y mo d ++ [' '] ++ formatTime (UInt32.ofNat h.toNat) m s us) ++ ['"']) := by
      simp only [display, List.append_assoc]
    rw [h0, Out.ok.injEq] at h1
    have e := List.append_cancel_left (List.append_cancel_right h1)
    obtain ⟨y', mo', d', h', m', s', us', ev, hh, -, day, sep, clock, days, hday, hc, hb⟩ := (datetimeText_ok _ _).1 h2
    injection ev with e1 e2 e3 e4 e5 e6 e7
    subst e1 e2 e3 e4 e5 e6 e7
    obtain ⟨b1, b2, b3⟩ := day_bounds hday
    refine ⟨b1, b2, b3, hh, clock_bounds ?_ hc⟩
    have l1 := congrArg List.length hb
    rw [← e, utf8_append, utf8_append, utf8_formatTime, utf8_formatDate, Spec.textDate] at l1
    have l2 := length_textClock_le (UInt32.ofNat h.toNat) us m s
    have a := length_pad_le 4 y.toNat (by have := y.toNat_lt; omega)
    have b := length_pad_le 2 mo.toNat (by have := mo.toNat_lt; omega)
    have c := length_pad_le 2 d.toNat (by have := d.toNat_lt; omega)
    have l3 : (utf8 [' ']).length = 1 := by decide
    simp only [List.length_append, List.length_singleton, l3] at l1
    omega
  · rintro ⟨hy, hmo, hd, hh, hm, hs, hu⟩
    exact C23_datetime_partial ff y mo d h m s us hy hmo hd hh hm hs hu

/-- Twenty-five o'clock is displayed, and read back as one o'clock. -/
example :
    display ⟨fun _ => [], fun _ => []⟩ (.datetime 2024 2 29 25 0 0 0) = .ok "\"2024-02-29 25:00:00\"".toList ∧
    datetimeText (utf8 "2024-02-29 25:00:00".toList) = .ok (.datetime 2024 2 29 1 0 0 0) := by
  decide +kernel

end Verif

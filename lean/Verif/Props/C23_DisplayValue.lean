import Verif.Proofs.Display

/-! # C23 — displayed values are SQL literals that denote the value -/

namespace Verif

/-- Integers of every kind are their decimal numeral. -/
theorem C23_integers (ff : FloatFmt) (v : Value) (w : Nat) (u : Bool) (x : Int)
    (h : Spec.meaning v = .int w u x) :
    ∃ t, display ff v = .ok t ∧ utf8 t = Spec.textInt 0 x := by
  have un : ∀ n : Nat, utf8 (decStr n) = Spec.textInt 0 (n : Int) := by
    intro n
    rw [utf8_decStr, Spec.textInt, if_neg (by omega)]
    rfl
  cases v <;> simp only [Spec.meaning, Spec.mkTime, Spec.Datum.int.injEq, reduceCtorEq] at h
  all_goals obtain ⟨-, -, rfl⟩ := h
  all_goals first
    | exact ⟨_, rfl, utf8_intStr _⟩
    | exact ⟨_, rfl, un _⟩

/-- Dates, times and datetimes, with any components at all, are one string literal: nothing in the
text ends the quotation early, whatever follows (except another quote). -/
theorem C23_one_literal (ff : FloatFmt) (v : Value) (t rest : Str) (h : display ff v = .ok t)
    (hv : (∃ y m d, v = .date y m d) ∨ (∃ n d h m s us, v = .time n d h m s us) ∨
      ∃ y mo d h m s us, v = .datetime y mo d h m s us)
    (hr : rest.head? ≠ some '"') :
    ∃ content, t = ['"'] ++ content ++ ['"'] ∧
      Spec.lex (t ++ rest) = some (.string content, rest) := by
  have key : ∀ s, Unquoted s → Spec.lex (['"'] ++ s ++ ['"'] ++ rest) = some (.string s, rest) := by
    intro s hs
    have := lex_quoted s rest hs hr
    simpa using this
  rcases hv with ⟨y, m, d, rfl⟩ | ⟨n, d, hh, m, s, us, rfl⟩ | ⟨y, mo, d, hh, m, s, us, rfl⟩
  · simp only [display, Out.ok.injEq] at h
    subst h
    exact ⟨_, rfl, key _ (unquoted_formatDate y m d)⟩
  · dsimp only [display] at h
    split at h
    · rw [Out.ok.injEq] at h
      subst h
      refine ⟨(if n then ['-'] else []) ++
        formatTime (UInt32.ofNat (d.toNat * 24 + hh.toNat)) m s us, ?_, ?_⟩
      · simp only [List.append_assoc]
      · rw [← key _ ?_]
        · simp only [List.append_assoc]
        · apply Unquoted.append
          · split
            · exact .single _ (by decide)
            · exact .nil
          · exact unquoted_formatTime _ _ _ _
    · cases h
  · simp only [display, Out.ok.injEq] at h
    subst h
    refine ⟨formatDate y mo d ++ [' '] ++ formatTime (UInt32.ofNat hh.toNat) m s us, ?_, ?_⟩
    · simp only [List.append_assoc]
    · rw [← key _ ?_]
      · simp only [List.append_assoc]
      · exact ((unquoted_formatDate _ _ _).append (.single _ (by decide))).append
          (unquoted_formatTime _ _ _ _)

/-- The text of a date reads back as the same date.
Missing: components that need more digits than the text has room for (`C23_wide_violated`). -/
theorem C23_date_partial (ff : FloatFmt) (y : UInt16) (m d : UInt8)
    (hy : y.toNat < 10000) (hm : m.toNat < 100) (hd : d.toNat < 100) :
    ∃ content, display ff (.date y m d) = .ok (['"'] ++ content ++ ['"']) ∧
      dateText (utf8 content) = .ok (.date y m d) := by
  refine ⟨formatDate y m d, rfl, ?_⟩
  rw [utf8_formatDate]
  unfold dateText
  rw [dateTextInner_date _ _ _ hy hm hd]
  simp

theorem length_dec_gt (k n : Nat) (h : 10 ^ k ≤ n) : k < (Spec.dec n).length := by
  induction k generalizing n with
  | zero => exact List.length_pos_iff.mpr (dec_ne_nil n)
  | succ k ih =>
    have h10 : 10 ≤ n := Nat.le_trans (Nat.le_self_pow (by omega) 10) h
    unfold Spec.dec
    rw [if_neg (by omega), List.length_append]
    have := ih (n / 10) (by rw [Nat.le_div_iff_mul_le (by decide)]; rw [Nat.pow_succ] at h; exact h)
    simp only [List.length_singleton]
    omega

theorem length_pad_ge (k n : Nat) : k ≤ (Spec.pad k n).length ∧ (10 ^ k ≤ n → k < (Spec.pad k n).length) := by
  have h := length_dec_gt k n
  rw [Spec.pad, List.length_append, List.length_replicate]
  exact ⟨by omega, fun hn => by have := h hn; omega⟩

/-- Dates, exactly: those with a year below 10000 and month and day below 100 are read back from what is displayed, and no
others. -/
theorem C23_date_exact_partial (ff : FloatFmt) (y : UInt16) (m d : UInt8) :
    (∃ content, display ff (.date y m d) = .ok (['"'] ++ content ++ ['"']) ∧
      dateText (utf8 content) = .ok (.date y m d)) ↔ y.toNat < 10000 ∧ m.toNat < 100 ∧ d.toNat < 100 := by
  constructor
  · rintro ⟨content, h1, h2⟩
    have e : content = formatDate y m d := by
      have h0 : display ff (.date y m d) = .ok (['"'] ++ formatDate y m d ++ ['"']) := rfl
      rw [h0, Out.ok.injEq] at h1
      exact (List.append_cancel_left (List.append_cancel_right h1)).symm
    subst e
    have hl : (utf8 (formatDate y m d)).length = 10 := by
      refine Classical.byContradiction fun hne => ?_
      unfold dateText dateTextInner at h2
      rw [if_pos (.inl hne)] at h2
      cases h2
    rw [utf8_formatDate, Spec.textDate] at hl
    simp only [List.length_append, List.length_singleton] at hl
    have a := length_pad_ge 4 y.toNat
    have b := length_pad_ge 2 m.toNat
    have c := length_pad_ge 2 d.toNat
    refine ⟨?_, ?_, ?_⟩ <;> refine Nat.lt_of_not_le fun hge => ?_
    · have := a.2 hge; omega
    · have := b.2 hge; omega
    · have := c.2 hge; omega
  · rintro ⟨hy, hm, hd⟩
    exact C23_date_partial ff y m d hy hm hd

/-- The text of a time reads back as the same time. -/
theorem C23_time_partial (ff : FloatFmt) (neg : Bool) (days : UInt32) (h m s : UInt8) (us : UInt32)
    (hd : days.toNat * 24 + h.toNat < 2 ^ 32) (hh : h.toNat < 24) (hm : m.toNat < 100)
    (hs : s.toNat < 100) (hu : us.toNat < 10 ^ 6) :
    ∃ content, display ff (.time neg days h m s us) = .ok (['"'] ++ content ++ ['"']) ∧
      timeText (utf8 content) = .ok (.time neg days h m s us) := by
  refine ⟨(if neg then ['-'] else []) ++
    formatTime (UInt32.ofNat (days.toNat * 24 + h.toNat)) m s us, ?_, ?_⟩
  · dsimp only [display]
    rw [if_pos hd]
    simp only [List.append_assoc]
  · rw [utf8_append, utf8_formatTime, uint32_toNat_ofNat_of_lt hd]
    have e : utf8 (if neg then ['-'] else []) = if neg then [0x2D] else [] := by
      cases neg <;> rfl
    rw [e]
    have := timeText_of (neg := neg) hd hm hs (fracOk_fracDigits us hu)
    unfold Spec.textTime at this
    rw [this]
    have e1 : (days.toNat * 24 + h.toNat) / 24 = days.toNat := by omega
    have e2 : (days.toNat * 24 + h.toNat) % 24 = h.toNat := by omega
    rw [e1, e2]
    simp

/-- The text of a datetime reads back as the same datetime. -/
theorem C23_datetime_partial (ff : FloatFmt) (y : UInt16) (mo d h m s : UInt8) (us : UInt32)
    (hy : y.toNat < 10000) (hmo : mo.toNat < 100) (hd : d.toNat < 100) (hh : h.toNat < 24)
    (hm : m.toNat < 100) (hs : s.toNat < 100) (hu : us.toNat < 10 ^ 6) :
    ∃ content, display ff (.datetime y mo d h m s us) = .ok (['"'] ++ content ++ ['"']) ∧
      datetimeText (utf8 content) = .ok (.datetime y mo d h m s us) := by
  refine ⟨formatDate y mo d ++ [' '] ++ formatTime (UInt32.ofNat h.toNat) m s us, ?_, ?_⟩
  · simp only [display, List.append_assoc]
  · rw [utf8_append, utf8_append, utf8_formatTime, utf8_formatDate,
      uint32_toNat_ofNat_of_lt (by omega)]
    have := datetimeText_of hy hmo hd hh hm hs (fracOk_fracDigits us hu)
    unfold Spec.textDatetime at this
    refine Eq.trans this ?_
    simp

/-- A byte string that is not empty is a hexadecimal literal of exactly these bytes, if no identifier
character follows. -/
theorem C23_bytes (ff : FloatFmt) (b : Bytes) (rest : Str) (hb : b ≠ [])
    (hr : rest.head?.any Spec.isIdentChar = false) :
    ∃ t, display ff (.bytes b) = .ok t ∧ Spec.lex (t ++ rest) = some (.hex b, rest) := by
  refine ⟨_, rfl, ?_⟩
  have hd := hexEncode_digits b
  have hrest : ∀ c ∈ rest.head?, (Spec.hexDigitVal c).isSome = false := by
    intro c hc
    have : Spec.isIdentChar c = false := by
      rw [Option.mem_def] at hc; rw [hc] at hr; simpa using hr
    rw [hexDigitVal_nat]
    simp only [Spec.isIdentChar, Spec.identRanges, List.any_cons, List.any_nil,
      Bool.or_eq_false_iff, Bool.and_eq_false_iff, decide_eq_false_iff_not] at this
    rw [if_neg (by omega), if_neg (by omega), if_neg (by omega)]
    rfl
  have ht : (hexEncode b ++ rest).takeWhile (fun c => (Spec.hexDigitVal c).isSome) = hexEncode b ∧
      (hexEncode b ++ rest).dropWhile (fun c => (Spec.hexDigitVal c).isSome) = rest := by
    rw [List.takeWhile_append_of_pos hd, List.dropWhile_append_of_pos hd]
    cases rest with
    | nil => simp
    | cons c r =>
      have := hrest c (by simp)
      simp [this]
  have hne : hexEncode b ≠ [] := by
    intro h
    have := length_hexEncode b
    rw [h] at this
    exact hb (List.length_eq_zero_iff.1 (by simp at this; omega))
  have hlen : (hexEncode b).length % 2 = 0 := by rw [length_hexEncode]; omega
  unfold Spec.lex Spec.lexHexLit
  simp only [List.cons_append, List.nil_append]
  rw [if_neg (by decide), if_neg (by decide), if_neg (by decide), ht.1, ht.2, if_neg hne, if_pos hlen,
    hexBytes_hexEncode, hr]
  rfl

/-- Byte strings, exactly: all but the empty one. -/
theorem C23_bytes_exact_partial (ff : FloatFmt) (b : Bytes) (rest : Str) (hr : rest.head?.any Spec.isIdentChar = false) :
    (∃ t, display ff (.bytes b) = .ok t ∧ Spec.lex (t ++ rest) = some (.hex b, rest)) ↔ b ≠ [] := by
  refine ⟨?_, fun hb => C23_bytes ff b rest hb hr⟩
  rintro ⟨t, ht, hl⟩ rfl
  have e : t = ['0', 'x'] := by
    have h0 : display ff (.bytes []) = .ok ['0', 'x'] := rfl
    rw [h0, Out.ok.injEq] at ht
    exact ht.symm
  subst e
  have hd : rest.takeWhile (fun c => (Spec.hexDigitVal c).isSome) = [] := by
    cases rest with
    | nil => rfl
    | cons c r =>
      have : Spec.isIdentChar c = false := by simpa using hr
      have hn : (Spec.hexDigitVal c).isSome = false := by
        rw [hexDigitVal_nat]
        simp only [Spec.isIdentChar, Spec.identRanges, List.any_cons, List.any_nil,
          Bool.or_eq_false_iff, Bool.and_eq_false_iff, decide_eq_false_iff_not] at this
        rw [if_neg (by omega), if_neg (by omega), if_neg (by omega)]
        rfl
      rw [List.takeWhile_cons, hn]
      rfl
  unfold Spec.lex Spec.lexHexLit at hl
  simp only [List.cons_append, List.nil_append] at hl
  rw [if_neg (by decide), if_neg (by decide), if_neg (by decide), hd, if_pos rfl] at hl
  cases hl

/-- The empty byte string is displayed as `0x`, which is not a hexadecimal literal. -/
theorem C23_empty_bytes_violated (ff : FloatFmt) :
    display ff (.bytes []) = .ok ['0', 'x'] ∧ Spec.lex ['0', 'x'] = none := ⟨rfl, by decide +kernel⟩

/-- A year above 9999 or a minute above 99 does not read back; a time of more than 178956970 days
(as the server may send in the binary protocol) panics. -/
theorem C23_wide_violated (ff : FloatFmt) :
    (∃ t, display ff (.date 10000 1 1) = .ok (['"'] ++ t ++ ['"']) ∧
      ∀ v, dateText (utf8 t) ≠ .ok v) ∧
    (∃ t, display ff (.time false 0 0 100 0 0) = .ok (['"'] ++ t ++ ['"']) ∧
      ∀ v, timeText (utf8 t) ≠ .ok v) ∧
    display ff (.time false 178956971 0 0 0 0) = .panic := by
  refine ⟨⟨formatDate 10000 1 1, rfl, ?_⟩, ⟨formatTime 0 100 0 0, rfl, ?_⟩, rfl⟩
  · have : dateText (utf8 (formatDate 10000 1 1))
      = .err (.parse (.invalidValue .date (utf8 "10000-01-01".toList))) := by decide +kernel
    intro v h; rw [this] at h; cases h
  · have : timeText (utf8 (formatTime 0 100 0 0))
      = .err (.parse (.invalidValue .time (utf8 "00:100:00".toList))) := by decide +kernel
    intro v h; rw [this] at h; cases h

example : display ⟨fun _ => [], fun _ => []⟩ (.time true 6 4 15 18 50)
    = .ok "\"-148:15:18.000050\"".toList := by decide +kernel

example : display ⟨fun _ => [], fun _ => []⟩ (.bytes [0x0A, 0xFF]) = .ok "0x0aff".toList := by
  decide +kernel

example :
    let ff : FloatFmt := ⟨fun _ => [], fun _ => []⟩
    display ff (.tiny (-128)) = .ok "-128".toList ∧
    display ff (.ulong 18446744073709551615) = .ok "18446744073709551615".toList ∧
    display ff (.date 2024 2 29) = .ok "\"2024-02-29\"".toList ∧
    display ff (.datetime 2024 2 29 23 59 59 0) = .ok "\"2024-02-29 23:59:59\"".toList := by
  decide +kernel

example : Spec.lex ("0x0aff".toList ++ " OR 1".toList) = some (.hex [0x0A, 0xFF], " OR 1".toList) ∧
    dateText (utf8 "2024-02-29".toList) = .ok (.date 2024 2 29) ∧
    timeText (utf8 "-148:15:18.000050".toList) = .ok (.time true 6 4 15 18 50) ∧
    datetimeText (utf8 "2024-02-29 23:59:59.000001".toList) = .ok (.datetime 2024 2 29 23 59 59 1) := by
  decide +kernel

end Verif

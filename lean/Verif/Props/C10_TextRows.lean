import Verif.Proofs.Text

/-!
# C10 — text rows decode to the values the server printed

`Spec.TextRow` (Verif/Spec/Text.lean) describes the rows a server sends.
-/

namespace Verif

theorem btou_textInt (mx z : Nat) (v : Int) :
    btou mx (Spec.textInt z v) = if 0 ≤ v ∧ v ≤ mx then some v.natAbs else none := by
  unfold Spec.textInt
  by_cases h : v < 0
  · rw [if_pos h, if_neg (by omega), List.append_assoc, List.singleton_append,
      btou_not_digit _ _ _ (by decide)]
  · rw [if_neg h, List.nil_append, btou_digits _ _ (digits_append (digits_zeros z) (digits_dec _))
      (by simp [dec_ne_nil]), valOf_append, valOf_zeros, valOf_dec]
    by_cases h2 : v ≤ mx
    · rw [if_pos (by omega), if_pos (by omega)]
    · rw [if_neg (by omega), if_neg (by omega)]

theorem btoi_textInt (mn mx z : Nat) (v : Int) :
    btoi mn mx (Spec.textInt z v) = if -(mn : Int) ≤ v ∧ v ≤ mx then some v else none := by
  have hb := btou_textInt mx z v
  unfold Spec.textInt at *
  by_cases h : v < 0
  · rw [if_pos h, List.append_assoc, List.singleton_append, btoi, if_neg (by decide),
      if_pos rfl, btou_digits _ _ (digits_append (digits_zeros z) (digits_dec _))
      (by simp [dec_ne_nil]), valOf_append, valOf_zeros, valOf_dec]
    by_cases h2 : -(mn : Int) ≤ v
    · rw [if_pos (by omega), if_pos (by omega)]
      exact congrArg some (show -((v.natAbs : Nat) : Int) = v by omega)
    · rw [if_neg (by omega), if_neg (by omega)]; rfl
  · rw [if_neg h, List.nil_append] at *
    have hd : Digits (List.replicate z 48 ++ Spec.dec v.natAbs) :=
      digits_append (digits_zeros z) (digits_dec _)
    have h0 : List.replicate z 48 ++ Spec.dec v.natAbs ≠ [] := by simp [dec_ne_nil]
    generalize List.replicate z 48 ++ Spec.dec v.natAbs = bs at *
    match bs, h0 with
    | b :: r, _ =>
      have hb1 := hd b (by simp)
      rw [btoi, if_neg (by rintro rfl; revert hb1; decide), if_neg (by rintro rfl; revert hb1; decide), hb]
      by_cases h2 : v ≤ mx
      · rw [if_pos (by omega), if_pos (by omega)]
        exact congrArg some (Int.natAbs_of_nonneg (by omega))
      · rw [if_neg (by omega), if_neg (by omega)]; rfl

/-- Integers in text are exact: for a column of an integer type and every integer `v` (printed with
any number of leading zeros), the value is `v` if `v` fits the column and an error otherwise. -/
theorem C10_integers_exact (fp : FloatParse) (t : ColumnType) (flags : UInt16) (w z : Nat) (v : Int)
    (ht : Spec.intWidth t.toByte.toNat = some w) :
    (Spec.inRange w (hasFlag16 flags ColFlag.UNSIGNED) v →
      ∃ x, textValue fp t flags (Spec.textInt z v) = .ok x ∧
        Spec.meaning x = .int w (hasFlag16 flags ColFlag.UNSIGNED) v) ∧
    (¬ Spec.inRange w (hasFlag16 flags ColFlag.UNSIGNED) v →
      ∃ e, textValue fp t flags (Spec.textInt z v) = .err e) := by
  cases hu : hasFlag16 flags ColFlag.UNSIGNED <;> cases t <;>
    simp only [ColumnType.toByte, Spec.intWidth] at ht <;> (try (exfalso; revert ht; decide)) <;>
    simp (config := { decide := true }) only [if_true, if_false] at ht <;>
    cases ht <;>
    simp only [textValue, hu, Bool.false_eq_true, if_false, if_true, btoi_textInt, btou_textInt,
      Spec.inRange]
  case false.tiny | false.short | false.year | false.long | false.int24 | false.longLong =>
    refine ⟨fun h => ?_, fun h => ?_⟩
    · rw [if_pos (by omega)]
      refine ⟨_, rfl, ?_⟩
      simp only [Spec.meaning]
      first
        | rw [Int8.toInt_ofInt_of_le (by omega) (by omega)]
        | rw [Int16.toInt_ofInt_of_le (by omega) (by omega)]
        | rw [Int32.toInt_ofInt_of_le (by omega) (by omega)]
        | rw [Int64.toInt_ofInt_of_le (by omega) (by omega)]
    · rw [if_neg (by omega)]
      exact ⟨_, rfl⟩
  case true.tiny | true.short | true.year | true.long | true.int24 | true.longLong =>
    refine ⟨fun h => ?_, fun h => ?_⟩
    · rw [if_pos (by omega)]
      refine ⟨_, rfl, ?_⟩
      simp only [Spec.meaning]
      first
        | rw [uint8_toNat_ofNat_of_lt (by omega)]
        | rw [uint16_toNat_ofNat_of_lt (by omega)]
        | rw [uint32_toNat_ofNat_of_lt (by omega)]
        | rw [uint64_toNat_ofNat_of_lt (by omega)]
      congr 1; omega
    · rw [if_neg (by omega)]
      exact ⟨_, rfl⟩

theorem textValue_of (fp : FloatParse) (t : ColumnType) (flags : UInt16) (d : Spec.Datum)
    (txt : Bytes)
    (h : Spec.TextForm fp t.toByte.toNat (hasFlag16 flags ColFlag.UNSIGNED) d txt) :
    ∃ v, textValue fp t flags txt = .ok v ∧ Spec.meaning v = d := by
  cases d with
  | null => exact h.elim
  | int w u v =>
    obtain ⟨rfl, h1, h2, z, rfl⟩ := h
    exact (C10_integers_exact fp t flags w z v h1).1 h2
  | float bits =>
    obtain ⟨h1, s, b, rfl, h2, rfl⟩ := h
    cases t <;> simp only [ColumnType.toByte] at h1 <;> (try (exfalso; revert h1; decide))
    refine ⟨.float b, ?_, rfl⟩
    simp [textValue, fromUtf8_utf8, h2]
  | double bits =>
    obtain ⟨h1, s, b, rfl, h2, rfl⟩ := h
    cases t <;> simp only [ColumnType.toByte] at h1 <;> (try (exfalso; revert h1; decide))
    refine ⟨.double b, ?_, rfl⟩
    simp [textValue, fromUtf8_utf8, h2]
  | str b =>
    obtain ⟨h1, h2, rfl⟩ := h
    cases t <;> simp only [ColumnType.toByte] at h1 h2 <;>
      first
        | (exfalso; revert h1; decide)
        | (exfalso; revert h2; decide)
        | exact ⟨_, rfl, rfl⟩
  | date y m d =>
    obtain ⟨h1, h2, h3, h4, rfl⟩ := h
    cases t <;> simp only [ColumnType.toByte] at h1 <;> (try (exfalso; revert h1; decide))
    refine ⟨.date (UInt16.ofNat y) (UInt8.ofNat m) (UInt8.ofNat d), ?_, ?_⟩
    · simp [textValue, dateText, dateTextInner_date y m d h2 h3 h4]
    · simp only [Spec.meaning]
      rw [uint16_toNat_ofNat_of_lt (by omega), uint8_toNat_ofNat_of_lt (by omega),
        uint8_toNat_ofNat_of_lt (by omega)]
  | datetime y mo d hh m s us =>
    obtain ⟨h1, h2, h3, h4, h5, h6, h7, k, h8, rfl⟩ := h
    have e := datetimeText_of h2 h3 h4 h5 h6 h7 h8
    have hus : us < 2 ^ 32 := by have := h8.2.1; omega
    refine ⟨.datetime (UInt16.ofNat y) (UInt8.ofNat mo) (UInt8.ofNat d) (UInt8.ofNat hh)
      (UInt8.ofNat m) (UInt8.ofNat s) (UInt32.ofNat us), ?_, ?_⟩
    · cases t <;> simp only [ColumnType.toByte] at h1 <;>
        first
          | (exfalso; revert h1; decide)
          | exact e
    · simp only [Spec.meaning]
      rw [uint16_toNat_ofNat_of_lt (by omega), uint8_toNat_ofNat_of_lt (by omega),
        uint8_toNat_ofNat_of_lt (by omega), uint8_toNat_ofNat_of_lt (by omega),
        uint8_toNat_ofNat_of_lt (by omega), uint8_toNat_ofNat_of_lt (by omega),
        uint32_toNat_ofNat_of_lt (by omega)]
  | time neg days hh m s us =>
    obtain ⟨h1, h2, h3, h4, h5, k, sign, h6, h7, rfl⟩ := h
    have e := timeText_of (neg := sign) h3 h4 h5 h6
    have hus : us < 2 ^ 32 := by have := h6.2.1; omega
    refine ⟨.time sign (UInt32.ofNat ((days * 24 + hh) / 24)) (UInt8.ofNat ((days * 24 + hh) % 24))
      (UInt8.ofNat m) (UInt8.ofNat s) (UInt32.ofNat us), ?_, ?_⟩
    · cases t <;> simp only [ColumnType.toByte] at h1 <;>
        first
          | (exfalso; revert h1; decide)
          | exact e
    · simp only [Spec.meaning]
      rw [h7, show (days * 24 + hh) / 24 = days from by omega,
        show (days * 24 + hh) % 24 = hh from by omega,
        uint32_toNat_ofNat_of_lt (by omega), uint8_toNat_ofNat_of_lt (by omega),
        uint8_toNat_ofNat_of_lt (by omega), uint8_toNat_ofNat_of_lt (by omega),
        uint32_toNat_ofNat_of_lt (by omega)]

/-- For every list of columns: a row the server printed for the values `ds` is decoded to values
with exactly these meanings, in order; NULL for NULL; bytes after the row are not looked at. -/
theorem C10_row_decodes (fp : FloatParse) (cols : List Column) (ds : List Spec.Datum)
    (bytes rest : Bytes) (h : Spec.TextRow fp (cols.map Column.wireType) ds bytes) :
    ∃ vs, readTextRow fp (bytes ++ rest) cols = .ok vs ∧ vs.map Spec.meaning = ds := by
  have key : ∃ vs, textRowLoop fp cols (bytes ++ rest) = (.ok vs, rest) ∧
      vs.map Spec.meaning = ds := by
    induction cols generalizing ds bytes with
    | nil => cases h; exact ⟨[], rfl, rfl⟩
    | cons c cols ih =>
      rw [List.map_cons] at h
      generalize hw : c.wireType = wt at h
      cases h with
      | null h =>
        obtain ⟨vs, h1, h2⟩ := ih _ _ h
        refine ⟨.null :: vs, ?_, by simp [h2, Spec.meaning]⟩
        have hd : ∀ r, deserializeText fp c.type c.flags (0xFB :: r) = (.ok .null, r) := fun _ => rfl
        rw [List.cons_append, textRowLoop, SM.bind_of_ok (hd _), SM.bind_of_ok h1]
        rfl
      | cell hf hl h =>
        rename_i d ds txt bs
        obtain ⟨vs, h1, h2⟩ := ih _ _ h
        cases hw
        obtain ⟨v, h3, h4⟩ := textValue_of fp c.type c.flags d txt hf
        refine ⟨v :: vs, ?_, by simp [h2, h4]⟩
        have hd : deserializeText fp c.type c.flags (Spec.lenencStr txt ++ (bs ++ rest))
            = (.ok v, bs ++ rest) := by
          have hs := P.checkedEatLenencSlice_spec (bs ++ rest) hl
          unfold deserializeText
          rw [SM.get_bind_apply]
          obtain ⟨b, r, hbr, hne⟩ : ∃ b r, Spec.lenencStr txt ++ (bs ++ rest) = b :: r ∧ b ≠ 0xFB := by
            have h1 := spec_lenenc_head txt.length (txt ++ (bs ++ rest))
            have h2 := spec_lenenc_ne_nil txt.length
            unfold Spec.lenencStr
            rw [List.append_assoc]
            generalize Spec.lenenc txt.length = l at *
            match l, h2 with
            | b :: l, _ =>
              refine ⟨b, l ++ (txt ++ (bs ++ rest)), rfl, ?_⟩
              simp at h1
              exact h1.1
          rw [hbr] at hs ⊢
          simp only [if_neg hne]
          rw [SM.bind_of_ok hs, SM.ofOut_apply, h3]
        rw [List.append_assoc, textRowLoop, SM.bind_of_ok hd, SM.bind_of_ok h1]
        rfl
  obtain ⟨vs, h1, h2⟩ := key
  exact ⟨vs, by rw [readTextRow, runP, h1], h2⟩

/-- Not part of the supported types: a non-NULL value of a column announced as LONG_BLOB panics
(`unimplemented!`) although its text is an ordinary string. -/
theorem C10_long_blob_violated :
    ∃ (fp : FloatParse) (col : Column), col.type = .longBlob ∧
      Spec.isStringType col.type.toByte.toNat = true ∧
      readTextRow fp (Spec.lenencStr [0x61]) [col] = .panic :=
  ⟨⟨fun _ => none, fun _ => none⟩,
    { orgName := [], name := [], orgTable := [], table := [], type := .longBlob, flags := 0 },
    rfl, by decide, by decide +kernel⟩

/-- Seven or more fraction digits (not produced by MySQL) panic instead of being rejected. -/
theorem C10_long_fraction_violated :
    timeText "10:00:00.1234567".toUTF8.toList = .panic := by decide +kernel

-- INT UNSIGNED 42 (zero-filled), NULL, TIME -26:03:04.5, DATETIME
example :
    let fp : FloatParse := ⟨fun _ => none, fun _ => none⟩
    let row := Spec.lenencStr (Spec.textInt 3 42) ++ (0xFB ::
      (Spec.lenencStr (Spec.textTime true 26 3 4 1 500000) ++
        (Spec.lenencStr (Spec.textDatetime 2024 2 29 23 59 59 6 1) ++ [])))
    Spec.TextRow fp [(3, true), (253, false), (11, false), (12, false)]
      [.int 4 true 42, .null, .time true 1 2 3 4 500000, .datetime 2024 2 29 23 59 59 1] row := by
  refine .cell ?_ (by decide +kernel) (.null (.cell ?_ (by decide +kernel) (.cell ?_ (by decide +kernel) .nil)))
  · exact ⟨rfl, rfl, by unfold Spec.inRange; decide, 3, rfl⟩
  · exact ⟨rfl, by decide, by decide, by decide, by decide, 1, true, by unfold Spec.fracOk; decide, rfl, rfl⟩
  · exact ⟨.inr rfl, by decide, by decide, by decide, by decide, by decide, by decide, 6, by unfold Spec.fracOk; decide, rfl⟩
example : Spec.textTime true 26 3 4 1 500000 = "-26:03:04.5".toUTF8.toList := by decide +kernel
example : Spec.textDatetime 2024 2 29 23 59 59 6 1 = "2024-02-29 23:59:59.000001".toUTF8.toList := by
  decide +kernel

end Verif

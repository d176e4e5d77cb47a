import Verif.Proofs.Row

/-!
# C09 — binary rows decode to the values the server encoded

`Spec.readRow` (Verif/Spec/Value.lean) is the documented layout of a binary row; it accepts every
legal length of temporal values.
-/

namespace Verif

/-- Whatever row packet means, by the protocol, the values `ds`: the decoder returns values with
exactly these meanings, in column order; bytes after the row are not looked at. -/
theorem C09_row_decodes (cols : List Column) (packet rest : Bytes) (ds : List Spec.Datum)
    (h : Spec.readRow (cols.map Column.wireType) packet = some (ds, rest)) :
    ∃ vs, readBinRow packet cols = .ok vs ∧ vs.map Spec.meaning = ds := by
  unfold Spec.readRow at h
  obtain ⟨⟨hd, bs⟩, h1, h2⟩ := option_bind_some h
  dsimp only at h2
  split at h2
  · cases h2
  · simp only [Option.bind_eq_bind] at h2
    obtain ⟨⟨bm, bs'⟩, h3, h4⟩ := option_bind_some h2
    dsimp only at h4
    simp only [List.length_map, Spec.readN] at h3
    split at h3
    · rename_i hlen
      simp only [Option.some.injEq, Prod.mk.injEq] at h3
      obtain ⟨rfl, rfl⟩ := h3
      have hbm : (bs.take ((cols.length + 7 + 2) / 8)).length = (cols.length + 7 + 2) / 8 := by
        rw [List.length_take]; omega
      obtain ⟨vs, h5, h6⟩ := binRowLoop_of _ cols 0 (by rw [hbm]; omega) h4
      refine ⟨vs, ?_, h6⟩
      unfold readBinRow runP
      have hsk : P.skip 1 packet = (.ok (), bs) := by
        cases packet with
        | nil => simp [Spec.readInt, Spec.readN] at h1
        | cons b p =>
          rw [spec_readInt_cons] at h1
          simp only [Option.some.injEq, Prod.mk.injEq] at h1
          simp [P.skip, h1.2]
      have hde : NullBitmap.deserialize false cols.length bs
          = (.ok (bs.take ((cols.length + 7 + 2) / 8)), bs.drop ((cols.length + 7 + 2) / 8)) := by
        have e : NullBitmap.bitmapLen false cols.length = (cols.length + 7 + 2) / 8 := rfl
        unfold NullBitmap.deserialize P.checkedEat P.eat
        rw [e, if_pos hlen, if_pos hlen]
      rw [SM.bind_of_ok hsk, SM.bind_of_ok hde, h5]
    · cases h3

/-- NULL exactly where the bitmap says so: a column is decoded to NULL if its bit is set; and if it
is not set, only for a column of type NULL. -/
theorem C09_null_bits (bm : Bytes) (types : List (Nat × Bool)) (i : Nat) (bs rest : Bytes)
    (ds : List Spec.Datum) (h : Spec.readRowValues bm i types bs = some (ds, rest)) :
    ds.length = types.length ∧
    ∀ k (hk : k < ds.length) (ht : k < types.length),
      (ds[k] = .null ↔ (Spec.bitSet bm (i + k + 2) = true ∨ types[k].1 = 6)) := by
  induction types generalizing i bs ds with
  | nil =>
    simp [Spec.readRowValues] at h
    obtain ⟨rfl, rfl⟩ := h
    simp
  | cons t types ih =>
    obtain ⟨code, u⟩ := t
    simp only [Spec.readRowValues] at h
    by_cases hb : Spec.bitSet bm (i + 2) = true
    · rw [if_pos hb] at h
      obtain ⟨⟨ds', r'⟩, h1, h2⟩ := option_bind_some h
      simp only [Option.pure_def, Option.some.injEq, Prod.mk.injEq] at h2
      obtain ⟨rfl, rfl⟩ := h2
      obtain ⟨h3, h4⟩ := ih (i + 1) _ _ h1
      refine ⟨by simp [h3], ?_⟩
      intro k hk ht
      cases k with
      | zero => simp [hb]
      | succ k =>
        have := h4 k (by simpa using hk) (by simpa using ht)
        simp only [List.getElem_cons_succ]
        rw [this]
        rw [show i + 1 + k = i + (k + 1) from by omega]
    · rw [if_neg hb] at h
      obtain ⟨⟨d, r1⟩, h0, h⟩ := option_bind_some h
      obtain ⟨⟨ds', r'⟩, h1, h2⟩ := option_bind_some h
      simp only [Option.pure_def, Option.some.injEq, Prod.mk.injEq] at h2
      obtain ⟨rfl, rfl⟩ := h2
      obtain ⟨h3, h4⟩ := ih (i + 1) _ _ h1
      refine ⟨by simp [h3], ?_⟩
      intro k hk ht
      cases k with
      | zero => simp [hb, readBin_eq_null h0]
      | succ k =>
        have := h4 k (by simpa using hk) (by simpa using ht)
        simp only [List.getElem_cons_succ]
        rw [this]
        rw [show i + 1 + k = i + (k + 1) from by omega]

/-- A row of arbitrary values, encoded as in C05 with any bitmap of the right size that marks
exactly the NULLs, comes back with the same meanings. -/
theorem C09_row_roundtrip (vs : List Value) (cols : List Column) (bm rest : Bytes)
    (hb : ∀ b, .bytes b ∈ vs → b.length < 2 ^ 64)
    (ht : cols.map Column.wireType = vs.map fun v => (v.columnType.toByte.toNat, v.isUnsigned))
    (hbl : bm.length = (vs.length + 9) / 8)
    (hbm : ∀ i (h : i < vs.length), Spec.bitSet bm (i + 2) = true ↔ vs[i] = .null) :
    ∃ vs', readBinRow ([0] ++ bm ++ vs.flatMap Value.serialize ++ rest) cols = .ok vs' ∧
      vs'.map Spec.meaning = vs.map Spec.meaning := by
  apply C09_row_decodes (rest := rest)
  have hvals : ∀ (ws : List Value) (i : Nat), (∀ b, .bytes b ∈ ws → b.length < 2 ^ 64) →
      (∀ k (h : k < ws.length), Spec.bitSet bm (i + k + 2) = true ↔ ws[k] = .null) →
      Spec.readRowValues bm i (ws.map fun v => (v.columnType.toByte.toNat, v.isUnsigned))
        (ws.flatMap Value.serialize ++ rest) = some (ws.map Spec.meaning, rest) := by
    intro ws
    induction ws with
    | nil => intro i _ _; simp [Spec.readRowValues]
    | cons v ws ih =>
      intro i h1 h2
      have h3 := ih (i + 1) (fun b hb => h1 b (by simp [hb])) (by
        intro k hk
        have := h2 (k + 1) (by simpa using hk)
        rw [show i + 1 + k = i + (k + 1) from by omega]
        simpa using this)
      have h4 := h2 0 (by simp)
      simp only [List.getElem_cons_zero, Nat.add_zero] at h4
      simp only [List.map_cons, Spec.readRowValues, List.flatMap_cons, List.append_assoc]
      by_cases hv : v = .null
      · rw [if_pos (h4.mpr hv)]
        subst hv
        simp only [Value.serialize, List.nil_append]
        rw [h3]
        rfl
      · rw [if_neg (fun h => hv (h4.mp h)), readBin_serialize v _ (fun b e => h1 b (by simp [e]))]
        simp only [Option.pure_def, Option.bind_eq_bind, Option.bind_some]
        rw [h3]
        rfl
  rw [ht]
  unfold Spec.readRow
  rw [List.append_assoc, List.append_assoc, List.singleton_append, spec_readInt_cons]
  simp only [Option.bind_eq_bind, Option.bind_some, List.length_map]
  rw [if_neg (by decide)]
  rw [spec_readN_append bm _ (by rw [hbl])]
  simp only [Option.bind_some]
  exact hvals vs 0 hb (by intro k hk; simpa using hbm k hk)

-- three columns (BIGINT UNSIGNED, VARCHAR, TIME), the second NULL, TIME of length 8
example :
    let col (t : ColumnType) (f : UInt16) : Column :=
      { orgName := [], name := [], orgTable := [], table := [], type := t, flags := f }
    readBinRow [0, 0x08, 255, 0, 0, 0, 0, 0, 0, 128, 8, 1, 2, 0, 0, 0, 3, 4, 5]
      [col .longLong 32, col .varString 0, col .time 0]
      = .ok [.ulong 9223372036854776063, .null, .time true 2 3 4 5 0] := by decide +kernel

end Verif

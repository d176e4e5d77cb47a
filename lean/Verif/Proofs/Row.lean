import Verif.Model.Text
import Verif.Proofs.BinValue

/-! Helper lemmas about binary rows. -/

namespace Verif

/-- type code and signedness of a column, as the server knows it. -/
def Column.wireType (c : Column) : Nat × Bool :=
  (c.type.toByte.toNat, hasFlag16 c.flags ColFlag.UNSIGNED)

theorem binRowLoop_of (bm : Bytes) (cols : List Column) (i : Nat) {bs r : Bytes}
    {ds : List Spec.Datum} (hl : i + cols.length ≤ 8 * bm.length - 2)
    (h : Spec.readRowValues bm i (cols.map Column.wireType) bs = some (ds, r)) :
    ∃ vs, binRowLoop bm i cols bs = (.ok vs, r) ∧ vs.map Spec.meaning = ds := by
  induction cols generalizing i bs ds with
  | nil =>
    simp [Spec.readRowValues] at h
    obtain ⟨rfl, rfl⟩ := h
    exact ⟨[], rfl, rfl⟩
  | cons c cols ih =>
    simp only [List.length_cons] at hl
    simp only [List.map_cons, Column.wireType, Spec.readRowValues] at h
    have hn : NullBitmap.isNull (ε := ProtocolError) false bm i = .ok (Spec.bitSet bm (i + 2)) := by
      rw [NullBitmap.isNull_eq, if_pos]
      · rfl
      · simp only [NullBitmap.offset]; simp; omega
    rw [binRowLoop, hn, SM.ofOut_ok_bind_apply]
    by_cases hb : Spec.bitSet bm (i + 2) = true
    · rw [if_pos hb] at h ⊢
      obtain ⟨⟨ds', r'⟩, h1, h2⟩ := option_bind_some h
      dsimp only at h2
      simp only [Option.pure_def, Option.some.injEq, Prod.mk.injEq] at h2
      obtain ⟨rfl, rfl⟩ := h2
      obtain ⟨vs, h3, h4⟩ := ih (i + 1) (by omega) h1
      refine ⟨.null :: vs, ?_, by simp [h4, Spec.meaning]⟩
      rw [SM.bind_of_ok h3]; rfl
    · rw [if_neg hb] at h ⊢
      obtain ⟨⟨d, r1⟩, h1, h2⟩ := option_bind_some h
      dsimp only at h2
      obtain ⟨⟨ds', r'⟩, h3, h4⟩ := option_bind_some h2
      dsimp only at h4
      simp only [Option.pure_def, Option.some.injEq, Prod.mk.injEq] at h4
      obtain ⟨rfl, rfl⟩ := h4
      obtain ⟨v, h5, h6⟩ := deserializeBin_of c.type c.flags h1
      obtain ⟨vs, h7, h8⟩ := ih (i + 1) (by omega) h3
      refine ⟨v :: vs, ?_, by simp [h6, h8]⟩
      rw [SM.bind_of_ok h5, SM.bind_of_ok h7]; rfl

theorem mkTime_ne_null (n : Bool) (a b c d e : Nat) : Spec.mkTime n a b c d e ≠ .null := by
  unfold Spec.mkTime; simp

theorem readDate_ne_null {bs r : Bytes} {d : Spec.Datum} (h : Spec.readDate bs = some (d, r)) :
    d ≠ .null := by
  obtain ⟨⟨n, r'⟩, -, h2⟩ := option_bind_some h
  dsimp only at h2
  split at h2
  · cases h2; intro h; cases h
  split at h2
  · obtain ⟨⟨⟨y, m, e⟩, r''⟩, -, h4⟩ := option_bind_some h2
    cases h4; intro h; cases h
  · cases h2

theorem readDatetime_ne_null {bs r : Bytes} {d : Spec.Datum}
    (h : Spec.readDatetime bs = some (d, r)) : d ≠ .null := by
  obtain ⟨⟨n, r'⟩, -, h2⟩ := option_bind_some h
  dsimp only at h2
  split at h2
  · cases h2; intro h; cases h
  split at h2
  · obtain ⟨⟨⟨y, m, e⟩, r''⟩, -, h4⟩ := option_bind_some h2
    cases h4; intro h; cases h
  split at h2
  · obtain ⟨⟨⟨y, m, e⟩, r''⟩, -, h4⟩ := option_bind_some h2
    obtain ⟨⟨⟨y1, m1, e1⟩, r1⟩, -, h6⟩ := option_bind_some h4
    cases h6; intro h; cases h
  split at h2
  · obtain ⟨⟨⟨y, m, e⟩, r''⟩, -, h4⟩ := option_bind_some h2
    obtain ⟨⟨⟨y1, m1, e1⟩, r1⟩, -, h6⟩ := option_bind_some h4
    obtain ⟨⟨u1, r2⟩, -, h8⟩ := option_bind_some h6
    cases h8; intro h; cases h
  · cases h2

theorem readTime_ne_null {bs r : Bytes} {d : Spec.Datum} (h : Spec.readTime bs = some (d, r)) :
    d ≠ .null := by
  obtain ⟨⟨n, r'⟩, -, h2⟩ := option_bind_some h
  dsimp only at h2
  split at h2
  · cases h2; intro h; cases h
  split at h2
  · obtain ⟨⟨n1, r1⟩, -, h4⟩ := option_bind_some h2
    obtain ⟨⟨n2, r2⟩, -, h6⟩ := option_bind_some h4
    obtain ⟨⟨⟨y, m, e⟩, r3⟩, -, h8⟩ := option_bind_some h6
    dsimp only at h8
    split at h8
    · cases h8; exact mkTime_ne_null _ _ _ _ _ _
    · cases h8
  split at h2
  · obtain ⟨⟨n1, r1⟩, -, h4⟩ := option_bind_some h2
    obtain ⟨⟨n2, r2⟩, -, h6⟩ := option_bind_some h4
    obtain ⟨⟨⟨y, m, e⟩, r3⟩, -, h8⟩ := option_bind_some h6
    obtain ⟨⟨u1, r4⟩, -, h10⟩ := option_bind_some h8
    dsimp only at h10
    split at h10
    · cases h10; exact mkTime_ne_null _ _ _ _ _ _
    · cases h10
  · cases h2

theorem readNum_ne_null {k : Nat} {u : Bool} {bs r : Bytes} {d : Spec.Datum}
    (h : Spec.readNum k u bs = some (d, r)) : d ≠ .null := by
  obtain ⟨⟨n, r'⟩, -, h2⟩ := option_bind_some h
  cases h2; intro h; cases h

/-- only the type NULL (6) yields NULL outside the bitmap. -/
theorem readBin_eq_null {code : Nat} {u : Bool} {bs r : Bytes} {d : Spec.Datum}
    (h : Spec.readBin code u bs = some (d, r)) : d = .null ↔ code = 6 := by
  unfold Spec.readBin at h
  constructor
  · rintro rfl
    split at h
    · exact absurd rfl (readNum_ne_null h)
    split at h
    · exact absurd rfl (readNum_ne_null h)
    split at h
    · exact absurd rfl (readNum_ne_null h)
    split at h
    · exact absurd rfl (readNum_ne_null h)
    split at h
    · obtain ⟨a, -, h1⟩ := Option.map_eq_some_iff.mp h; cases h1
    split at h
    · obtain ⟨a, -, h1⟩ := Option.map_eq_some_iff.mp h; cases h1
    split at h
    · assumption
    split at h
    · exact absurd rfl (readDate_ne_null h)
    split at h
    · exact absurd rfl (readDatetime_ne_null h)
    split at h
    · exact absurd rfl (readTime_ne_null h)
    split at h
    · obtain ⟨a, -, h1⟩ := Option.map_eq_some_iff.mp h; cases h1
    · cases h
  · rintro rfl
    rw [if_neg (by decide), if_neg (by decide), if_neg (by decide), if_neg (by decide),
      if_neg (by decide), if_neg (by decide), if_pos rfl] at h
    cases h; rfl

end Verif

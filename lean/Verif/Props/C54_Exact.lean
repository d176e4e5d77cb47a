import Verif.Props.C54_Columns
import Verif.Props.C73_Packets

/-!
# C54 — exactly which column descriptions are decoded right
-/

namespace Verif

/-- no string begins with the byte 0xFC. -/
theorem utf8_head_ne (s : Str) (r : Bytes) : utf8 s ≠ 0xFC :: r := by
  intro h
  have h1 := fromUtf8_utf8 s
  rw [h] at h1
  simp [fromUtf8, fromUtf8Loop, decodeChar] at h1

/-- a string with a longer length prefix is never read as itself by someone who takes the first byte for the length. -/
theorem short_of_str8 {s : Str} {x y : Bytes} (hs : (utf8 s).length < 256)
    (h : Spec.lenencStr (utf8 s) ++ x = Spec.str8 s ++ y) : (utf8 s).length < 251 ∧ x = y := by
  have h251 : (utf8 s).length < 251 := by
    refine Nat.lt_of_not_le fun hle => ?_
    unfold Spec.lenencStr Spec.lenenc Spec.str8 at h
    rw [if_neg (by omega), if_pos (by omega)] at h
    simp only [List.cons_append, List.append_assoc, List.cons.injEq] at h
    obtain ⟨h0, h1⟩ := h
    have hl : (utf8 s).length = 252 := by
      have := congrArg UInt8.toNat h0
      rw [uint8_toNat_ofNat_of_lt hs] at this
      exact this.symm
    rw [hl] at h1
    match hu : utf8 s, h1 with
    | [], h1 => simp [hu] at hl
    | b :: bs, h1 =>
      have e : Spec.le 2 252 = [0xFC, 0] := by decide
      rw [e] at h1
      simp only [List.cons_append, List.cons.injEq] at h1
      rw [← h1.1] at hu
      exact utf8_head_ne s bs hu
  refine ⟨h251, ?_⟩
  have e : Spec.lenencStr (utf8 s) = Spec.str8 s := by
    unfold Spec.lenencStr Spec.lenenc Spec.str8
    rw [if_pos (by omega)]
    rfl
  rw [e] at h
  exact List.append_cancel_left h

/-- two strings with a length byte in front of the same bytes are the same. -/
theorem str8_same {a b : Str} {x y : Bytes} (ha : (utf8 a).length < 251) (hb : (utf8 b).length < 256)
    (h : Spec.lenencStr (utf8 a) ++ x = Spec.str8 b ++ y) : x = y := by
  unfold Spec.lenencStr Spec.lenenc Spec.str8 at h
  rw [if_pos (by omega)] at h
  simp only [List.cons_append, List.nil_append, List.cons.injEq] at h
  have hl : (utf8 a).length = (utf8 b).length := by
    have := congrArg UInt8.toNat h.1
    rwa [uint8_toNat_ofNat_of_lt (by omega), uint8_toNat_ofNat_of_lt hb] at this
  exact (List.append_inj h.2 hl).2

/-- **C54**, exactly: of the column descriptions with a short database name, those are decoded right whose four other names are
shorter than 251 bytes, and no others: a longer name is refused or reported as something else. -/
theorem C54_exact_partial (d : Spec.ColDesc) (t : ColumnType) (rest : Bytes) (hdb : (utf8 d.db).length < 251)
    (ht : d.code = t.toByte.toNat) (hf : d.flags < 2 ^ 16) (hc : d.charset < 2 ^ 16) (hl : d.length < 2 ^ 32) :
    (∃ cd, runP ColumnDef.deserialize (Spec.colDef d ++ rest) = .ok cd ∧
      let col := Column.ofDef cd
      col.table = d.table ∧ col.orgTable = d.orgTable ∧ col.name = d.name ∧
      col.orgName = d.orgName ∧ col.type.toByte.toNat = d.code ∧ col.flags.toNat = d.flags) ↔
    (utf8 d.table).length < 251 ∧ (utf8 d.orgTable).length < 251 ∧ (utf8 d.name).length < 251 ∧
      (utf8 d.orgName).length < 251 := by
  constructor
  · rintro ⟨cd, h, h1, h2, h3, h4, -, -⟩
    dsimp only [Column.ofDef] at h1 h2 h3 h4
    rw [C73_column] at h
    obtain ⟨hshort, f1, f2, r, h⟩ := h
    simp only [List.mem_cons, List.not_mem_nil, or_false, forall_eq_or_imp, forall_eq] at hshort
    obtain ⟨s0, s1, s2, s3, s4⟩ := hshort
    rw [h1] at s1 h
    rw [h2] at s2 h
    rw [h3] at s3 h
    rw [h4] at s4 h
    unfold Spec.colDef at h
    simp only [List.append_assoc] at h
    have h := str8_same (by decide) (by decide) h
    have h := str8_same hdb s0 h
    obtain ⟨t1, h⟩ := short_of_str8 s1 h
    obtain ⟨t2, h⟩ := short_of_str8 s2 h
    obtain ⟨t3, h⟩ := short_of_str8 s3 h
    exact ⟨t1, t2, t3, (short_of_str8 s4 h).1⟩
  · rintro ⟨h1, h2, h3, h4⟩
    exact C54_column_partial d t rest hdb h1 h2 h3 h4 ht hf hc hl

/-- the longest name that is decoded right, and the shortest that is not. -/
example : ∀ n ∈ [250, 251],
    (match runP ColumnDef.deserialize (Spec.colDef
        { db := ['d'], table := ['t'], orgTable := ['t'], name := List.replicate n 'a', orgName := [], charset := 33, length := 1,
          code := 3, flags := 0, decimals := 0 }) with
      | .ok cd => decide (cd.name = List.replicate n 'a')
      | _ => false) = decide (n = 250) := by
  decide +kernel

end Verif

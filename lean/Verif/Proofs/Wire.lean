import Verif.Model.Wire
import Verif.Spec.Wire

/-! Helper lemmas about wire fields. -/

namespace Verif

theorem spec_le_eq (k n : Nat) : Spec.le k n = leBytes k n := by
  induction k generalizing n with
  | zero => rfl
  | succ k ih =>
    have h := ih (n / 256)
    unfold Spec.le at h ⊢
    rw [List.range_succ_eq_map, List.map_cons, List.map_map, leBytes, ← h]
    congr 1
    · simp
    · apply List.map_congr_left
      intro i _
      simp [Nat.pow_succ, Nat.div_div_eq_div_mul, Nat.mul_comm]

theorem spec_unle_eq (bs : Bytes) : Spec.unle bs = leNat bs := by
  induction bs with
  | nil => rfl
  | cons b bs ih => simp only [Spec.unle, List.foldr_cons, leNat] at *; rw [ih]

theorem leBytes_one (n : Nat) (h : n < 256) : leBytes 1 n = [UInt8.ofNat n] := by
  simp [leBytes, Nat.mod_eq_of_lt h]

theorem putLenencInt_eq_spec (n : UInt64) : putLenencInt n = Spec.lenenc n.toNat := by
  unfold putLenencInt Spec.lenenc
  simp only [spec_le_eq]
  have e1 : n.toNat < 251 ↔ n.toNat ≤ 250 := Nat.lt_succ_iff
  have e2 : n.toNat < 65536 ↔ n.toNat ≤ 65535 := Nat.lt_succ_iff
  have e3 : n.toNat < 16777216 ↔ n.toNat ≤ 16777215 := Nat.lt_succ_iff
  simp only [e1, e2, e3]
  split
  · rw [leBytes_one _ (by omega)]
  · rfl

theorem uint64_toNat_ofNat_of_lt {n : Nat} (h : n < 2 ^ 64) : (UInt64.ofNat n).toNat = n := by
  simp only [UInt64.toNat_ofNat']; omega

theorem uint32_toNat_ofNat_of_lt {n : Nat} (h : n < 2 ^ 32) : (UInt32.ofNat n).toNat = n := by
  simp only [UInt32.toNat_ofNat']; omega

theorem uint16_toNat_ofNat_of_lt {n : Nat} (h : n < 2 ^ 16) : (UInt16.ofNat n).toNat = n := by
  simp only [UInt16.toNat_ofNat']; omega

theorem uint8_toNat_ofNat_of_lt {n : Nat} (h : n < 256) : (UInt8.ofNat n).toNat = n := by
  simp only [UInt8.toNat_ofNat']; omega

theorem putLenencSlice_eq_spec {s : Bytes} (h : s.length < 2 ^ 64) :
    putLenencSlice s = Spec.lenencStr s := by
  unfold putLenencSlice Spec.lenencStr
  rw [putLenencInt_eq_spec, uint64_toNat_ofNat_of_lt h]

/-! ### Readers on `a ++ rest` -/

namespace P

theorem eat_append {n : Nat} (a r : Bytes) (h : a.length = n) : eat n (a ++ r) = (.ok a, r) := by
  subst h; simp [eat]

theorem checkedEat_append {n : Nat} (a r : Bytes) (h : a.length = n) :
    checkedEat n (a ++ r) = (.ok a, r) := by
  rw [checkedEat, if_pos (by simp [← h]), eat_append a r h]

theorem eatNat_append {k : Nat} (a r : Bytes) (h : a.length = k) :
    eatNat k (a ++ r) = (.ok (leNat a), r) := by
  rw [eatNat, SM.bind_of_ok (eat_append a r h), SM.pure_apply]

theorem checkedEatNat_append {k : Nat} (a r : Bytes) (h : a.length = k) :
    checkedEatNat k (a ++ r) = (.ok (leNat a), r) := by
  rw [checkedEatNat, SM.bind_of_ok (checkedEat_append a r h), SM.pure_apply]

theorem eatNat_leBytes (k n : Nat) (r : Bytes) (h : n < 256 ^ k) :
    eatNat k (leBytes k n ++ r) = (.ok n, r) := by
  rw [eatNat_append _ _ (length_leBytes k n), leNat_leBytes_of_lt h]

theorem checkedEatNat_leBytes (k n : Nat) (r : Bytes) (h : n < 256 ^ k) :
    checkedEatNat k (leBytes k n ++ r) = (.ok n, r) := by
  rw [checkedEatNat_append _ _ (length_leBytes k n), leNat_leBytes_of_lt h]

@[simp] theorem eatU8_cons (b : UInt8) (r : Bytes) : eatU8 (b :: r) = (.ok b, r) := by
  have h : eatNat 1 (b :: r) = _ := eatNat_append (k := 1) [b] r rfl
  rw [eatU8, SM.bind_of_ok h]
  simp [leNat]

@[simp] theorem checkedEatU8_cons (b : UInt8) (r : Bytes) :
    checkedEatU8 (b :: r) = (.ok b, r) := by
  have h : checkedEatNat 1 (b :: r) = _ := checkedEatNat_append (k := 1) [b] r rfl
  rw [checkedEatU8, SM.bind_of_ok h]
  simp [leNat]

@[simp] theorem eatU16_le (x : UInt16) (r : Bytes) :
    eatU16 (leBytes 2 x.toNat ++ r) = (.ok x, r) := by
  rw [eatU16, SM.bind_of_ok (eatNat_leBytes 2 _ r x.toNat_lt)]; simp

@[simp] theorem eatU32_le (x : UInt32) (r : Bytes) :
    eatU32 (leBytes 4 x.toNat ++ r) = (.ok x, r) := by
  rw [eatU32, SM.bind_of_ok (eatNat_leBytes 4 _ r x.toNat_lt)]; simp

@[simp] theorem eatU64_le (x : UInt64) (r : Bytes) :
    eatU64 (leBytes 8 x.toNat ++ r) = (.ok x, r) := by
  rw [eatU64, SM.bind_of_ok (eatNat_leBytes 8 _ r x.toNat_lt)]; simp

@[simp] theorem checkedEatU16_le (x : UInt16) (r : Bytes) :
    checkedEatU16 (leBytes 2 x.toNat ++ r) = (.ok x, r) := by
  rw [checkedEatU16, SM.bind_of_ok (checkedEatNat_leBytes 2 _ r x.toNat_lt)]; simp

@[simp] theorem checkedEatU32_le (x : UInt32) (r : Bytes) :
    checkedEatU32 (leBytes 4 x.toNat ++ r) = (.ok x, r) := by
  rw [checkedEatU32, SM.bind_of_ok (checkedEatNat_leBytes 4 _ r x.toNat_lt)]; simp

@[simp] theorem checkedEatU64_le (x : UInt64) (r : Bytes) :
    checkedEatU64 (leBytes 8 x.toNat ++ r) = (.ok x, r) := by
  rw [checkedEatU64, SM.bind_of_ok (checkedEatNat_leBytes 8 _ r x.toNat_lt)]; simp

theorem uint8_le_250_ofNat {n : Nat} (h : n ≤ 250) : (UInt8.ofNat n).toNat ≤ 0xfa := by
  rw [uint8_toNat_ofNat_of_lt (by omega)]; exact h

@[simp] theorem checkedEatLenencInt_put (n : UInt64) (r : Bytes) :
    checkedEatLenencInt (putLenencInt n ++ r) = (.ok n, r) := by
  unfold putLenencInt checkedEatLenencInt
  split
  · rename_i h
    rw [leBytes_one _ (by omega), List.cons_append, List.nil_append,
      SM.bind_of_ok (checkedEatU8_cons _ _), if_pos (uint8_le_250_ofNat (by omega)),
      SM.pure_apply, uint8_toNat_ofNat_of_lt (by omega)]
    simp
  · split
    · rename_i h1 h2
      rw [List.cons_append, SM.bind_of_ok (checkedEatU8_cons _ _), if_neg (by decide),
        if_pos rfl]
      have h16 : n.toNat = (UInt16.ofNat n.toNat).toNat :=
        (uint16_toNat_ofNat_of_lt (by omega)).symm
      rw [h16, SM.bind_of_ok (checkedEatU16_le _ _), ← h16]
      simp
    · split
      · rename_i h1 h2 h3
        rw [List.cons_append, SM.bind_of_ok (checkedEatU8_cons _ _), if_neg (by decide),
          if_neg (by decide), if_pos rfl]
        have : checkedEatU24 (leBytes 3 n.toNat ++ r) = (.ok (UInt32.ofNat n.toNat), r) := by
          rw [checkedEatU24, SM.bind_of_ok (checkedEatNat_leBytes 3 _ r (by omega)),
            SM.pure_apply]
        rw [SM.bind_of_ok this, SM.pure_apply, uint32_toNat_ofNat_of_lt (by omega)]
        simp
      · rw [List.cons_append, SM.bind_of_ok (checkedEatU8_cons _ _), if_neg (by decide),
          if_neg (by decide), if_neg (by decide), if_pos rfl, checkedEatU64_le]

@[simp] theorem eatLenencInt_put (n : UInt64) (r : Bytes) :
    eatLenencInt (putLenencInt n ++ r) = (.ok n, r) := by
  unfold putLenencInt eatLenencInt
  split
  · rename_i h
    rw [leBytes_one _ (by omega), List.cons_append, List.nil_append,
      SM.bind_of_ok (eatU8_cons _ _), if_pos (uint8_le_250_ofNat (by omega)),
      SM.pure_apply, uint8_toNat_ofNat_of_lt (by omega)]
    simp
  · split
    · rename_i h1 h2
      rw [List.cons_append, SM.bind_of_ok (eatU8_cons _ _), if_neg (by decide),
        if_pos rfl]
      have h16 : n.toNat = (UInt16.ofNat n.toNat).toNat :=
        (uint16_toNat_ofNat_of_lt (by omega)).symm
      rw [h16, SM.bind_of_ok (eatU16_le _ _), ← h16]
      simp
    · split
      · rename_i h1 h2 h3
        rw [List.cons_append, SM.bind_of_ok (eatU8_cons _ _), if_neg (by decide),
          if_neg (by decide), if_pos rfl]
        have : eatU24 (leBytes 3 n.toNat ++ r) = (.ok (UInt32.ofNat n.toNat), r) := by
          rw [eatU24, SM.bind_of_ok (eatNat_leBytes 3 _ r (by omega)),
            SM.pure_apply]
        rw [SM.bind_of_ok this, SM.pure_apply, uint32_toNat_ofNat_of_lt (by omega)]
        simp
      · rw [List.cons_append, SM.bind_of_ok (eatU8_cons _ _), if_neg (by decide),
          if_neg (by decide), if_neg (by decide), if_pos rfl, eatU64_le]

theorem checkedEatLenencSlice_put {s : Bytes} (r : Bytes) (h : s.length < 2 ^ 64) :
    checkedEatLenencSlice (putLenencSlice s ++ r) = (.ok s, r) := by
  rw [checkedEatLenencSlice, putLenencSlice, List.append_assoc,
    SM.bind_of_ok (checkedEatLenencInt_put _ _), uint64_toNat_ofNat_of_lt h,
    checkedEat_append s r rfl]

theorem checkedEatLenencInt_spec {n : Nat} (r : Bytes) (h : n < 2 ^ 64) :
    checkedEatLenencInt (Spec.lenenc n ++ r) = (.ok (UInt64.ofNat n), r) := by
  have := checkedEatLenencInt_put (UInt64.ofNat n) r
  rwa [putLenencInt_eq_spec, uint64_toNat_ofNat_of_lt h] at this

theorem checkedEatLenencSlice_spec {s : Bytes} (r : Bytes) (h : s.length < 2 ^ 64) :
    checkedEatLenencSlice (Spec.lenencStr s ++ r) = (.ok s, r) := by
  rw [← putLenencSlice_eq_spec h, checkedEatLenencSlice_put r h]

end P

/-! ### Lengths and first bytes -/

theorem length_putLenencInt (n : UInt64) : (putLenencInt n).length = lenencIntLen n.toNat := by
  unfold putLenencInt lenencIntLen
  split
  · simp
  · split
    · simp
    · split
      · simp
      · simp

theorem length_putLenencSlice {s : Bytes} (h : s.length < 2 ^ 64) :
    (putLenencSlice s).length = lenencSliceLen s := by
  simp [putLenencSlice, lenencSliceLen, length_putLenencInt, uint64_toNat_ofNat_of_lt h]

theorem spec_length_lenenc (n : Nat) : 1 ≤ (Spec.lenenc n).length := by
  unfold Spec.lenenc
  split
  · simp
  · split
    · simp
    · split
      · simp
      · simp

theorem spec_lenenc_ne_nil (n : Nat) : Spec.lenenc n ≠ [] := by
  have := spec_length_lenenc n
  intro h; simp [h] at this

/-- the first byte of an encoded integer. -/
theorem spec_lenenc_head (n : Nat) (r : Bytes) :
    ∃ b t, Spec.lenenc n ++ r = b :: t ∧ b ≠ 0xFB ∧ b ≠ 0xFF ∧ (b = 0xFE → 16777216 ≤ n) ∧
      (n = 0 ↔ b = 0) := by
  unfold Spec.lenenc
  split
  · rename_i h
    refine ⟨UInt8.ofNat n, r, rfl, ?_, ?_, ?_, ?_⟩
    · intro hb
      have := congrArg UInt8.toNat hb
      rw [uint8_toNat_ofNat_of_lt (by omega)] at this
      simp at this; omega
    · intro hb
      have := congrArg UInt8.toNat hb
      rw [uint8_toNat_ofNat_of_lt (by omega)] at this
      simp at this; omega
    · intro hb
      have := congrArg UInt8.toNat hb
      rw [uint8_toNat_ofNat_of_lt (by omega)] at this
      simp at this; omega
    · constructor
      · rintro rfl; rfl
      · intro hb
        have := congrArg UInt8.toNat hb
        rw [uint8_toNat_ofNat_of_lt (by omega)] at this
        simpa using this
  · rename_i h1
    split
    · rename_i h2
      refine ⟨0xFC, _, rfl, by decide, by decide, fun h => absurd h (by decide), ?_⟩
      constructor
      · omega
      · intro h; exact absurd h (by decide)
    · rename_i h2
      split
      · refine ⟨0xFD, _, rfl, by decide, by decide, fun h => absurd h (by decide), ?_⟩
        constructor
        · omega
        · intro h; exact absurd h (by decide)
      · refine ⟨0xFE, _, rfl, by decide, by decide, by omega, ?_⟩
        constructor
        · omega
        · intro h; exact absurd h (by decide)

/-! ### Spec readers on spec writers -/

theorem spec_readN_append {n : Nat} (a r : Bytes) (h : a.length = n) :
    Spec.readN n (a ++ r) = some (a, r) := by
  subst h; simp [Spec.readN]

theorem spec_readInt_append {k : Nat} (a r : Bytes) (h : a.length = k) :
    Spec.readInt k (a ++ r) = some (leNat a, r) := by
  rw [Spec.readInt, spec_readN_append a r h]; simp [spec_unle_eq]

theorem spec_readInt_leBytes {k n : Nat} (r : Bytes) (h : n < 256 ^ k) :
    Spec.readInt k (leBytes k n ++ r) = some (n, r) := by
  rw [spec_readInt_append _ r (length_leBytes k n), leNat_leBytes_of_lt h]

theorem spec_readLenenc_lenenc {n : Nat} (r : Bytes) (h : n < 2 ^ 64) :
    Spec.readLenenc (Spec.lenenc n ++ r) = some (n, r) := by
  unfold Spec.lenenc
  simp only [spec_le_eq]
  split
  · have : (UInt8.ofNat n).toNat = n := uint8_toNat_ofNat_of_lt (by omega)
    simp only [List.cons_append, List.nil_append, Spec.readLenenc, this]
    rw [if_pos (by assumption)]
  · split
    · rw [List.cons_append, Spec.readLenenc, if_neg (by decide), if_pos rfl]
      simp [spec_unle_eq, leNat_leBytes_of_lt (k := 2) (n := n) (by omega)]
    · split
      · rw [List.cons_append, Spec.readLenenc, if_neg (by decide), if_neg (by decide), if_pos rfl]
        simp [spec_unle_eq, leNat_leBytes_of_lt (k := 3) (n := n) (by omega)]
      · rw [List.cons_append, Spec.readLenenc, if_neg (by decide), if_neg (by decide),
          if_neg (by decide), if_pos rfl]
        simp [spec_unle_eq, leNat_leBytes_of_lt (k := 8) (n := n) (by omega)]

theorem spec_readLenencStr_lenencStr {s : Bytes} (r : Bytes) (h : s.length < 2 ^ 64) :
    Spec.readLenencStr (Spec.lenencStr s ++ r) = some (s, r) := by
  rw [Spec.lenencStr, Spec.readLenencStr, List.append_assoc, spec_readLenenc_lenenc _ h]
  simp

theorem spec_readNul_append {s : Bytes} (r : Bytes) (h : ∀ b ∈ s, b ≠ 0) :
    Spec.readNul (s ++ 0 :: r) = some (s, r) := by
  induction s with
  | nil => simp [Spec.readNul]
  | cons b s ih =>
    rw [List.cons_append, Spec.readNul, if_neg (h b (by simp)),
      ih (fun x hx => h x (List.mem_cons_of_mem _ hx))]

end Verif

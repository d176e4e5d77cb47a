import Verif.Proofs.Value

/-! Binary values: serializer against the reference reader, decoder against the reference reader. -/

namespace Verif

/-! ### Two's complement -/

theorem signed_int8 (x : Int8) : Spec.signed 1 x.toUInt8.toNat = x.toInt := by
  have h : x.toInt = x.toBitVec.toInt := rfl
  have h2 : x.toUInt8.toNat = x.toBitVec.toNat := rfl
  rw [h, h2, BitVec.toInt_eq_toNat_cond, Spec.signed]
  have := x.toBitVec.isLt
  split <;> split <;> simp_all <;> omega

theorem signed_int16 (x : Int16) : Spec.signed 2 x.toUInt16.toNat = x.toInt := by
  have h : x.toInt = x.toBitVec.toInt := rfl
  have h2 : x.toUInt16.toNat = x.toBitVec.toNat := rfl
  rw [h, h2, BitVec.toInt_eq_toNat_cond, Spec.signed]
  have := x.toBitVec.isLt
  split <;> split <;> simp_all <;> omega

theorem signed_int32 (x : Int32) : Spec.signed 4 x.toUInt32.toNat = x.toInt := by
  have h : x.toInt = x.toBitVec.toInt := rfl
  have h2 : x.toUInt32.toNat = x.toBitVec.toNat := rfl
  rw [h, h2, BitVec.toInt_eq_toNat_cond, Spec.signed]
  have := x.toBitVec.isLt
  split <;> split <;> simp_all <;> omega

theorem signed_int64 (x : Int64) : Spec.signed 8 x.toUInt64.toNat = x.toInt := by
  have h : x.toInt = x.toBitVec.toInt := rfl
  have h2 : x.toUInt64.toNat = x.toBitVec.toNat := rfl
  rw [h, h2, BitVec.toInt_eq_toNat_cond, Spec.signed]
  have := x.toBitVec.isLt
  split <;> split <;> simp_all <;> omega

/-! ### Serializer against reference reader -/

theorem spec_readInt_cons (b : UInt8) (r : Bytes) : Spec.readInt 1 (b :: r) = some (b.toNat, r) := by
  have : Spec.readInt 1 ([b] ++ r) = some (leNat [b], r) := spec_readInt_append [b] r rfl
  simpa [leNat] using this

theorem spec_readInt_u16 (x : UInt16) (r : Bytes) :
    Spec.readInt 2 (leBytes 2 x.toNat ++ r) = some (x.toNat, r) :=
  spec_readInt_leBytes r (by have := x.toNat_lt; omega)
theorem spec_readInt_u32 (x : UInt32) (r : Bytes) :
    Spec.readInt 4 (leBytes 4 x.toNat ++ r) = some (x.toNat, r) :=
  spec_readInt_leBytes r (by have := x.toNat_lt; omega)
theorem spec_readInt_u64 (x : UInt64) (r : Bytes) :
    Spec.readInt 8 (leBytes 8 x.toNat ++ r) = some (x.toNat, r) :=
  spec_readInt_leBytes r (by have := x.toNat_lt; omega)
theorem spec_readInt_u8 (x : UInt8) (r : Bytes) :
    Spec.readInt 1 (leBytes 1 x.toNat ++ r) = some (x.toNat, r) :=
  spec_readInt_leBytes r (by have := x.toNat_lt; omega)

theorem spec_readYmd (y : UInt16) (m d : UInt8) (r : Bytes) :
    Spec.readYmd (leBytes 2 y.toNat ++ m :: d :: r) = some ((y.toNat, m.toNat, d.toNat), r) := by
  simp [Spec.readYmd, spec_readInt_u16, spec_readInt_cons]

theorem spec_readHms (h m s : UInt8) (r : Bytes) :
    Spec.readHms (h :: m :: s :: r) = some ((h.toNat, m.toNat, s.toNat), r) := by
  simp [Spec.readHms, spec_readInt_cons]

/-- The reference reader recovers the meaning of every serialized value and stops exactly at its
end. -/
theorem readBin_serialize (v : Value) (r : Bytes) (hb : ∀ b, v = .bytes b → b.length < 2 ^ 64) :
    Spec.readBin v.columnType.toByte.toNat v.isUnsigned (v.serialize ++ r)
      = some (Spec.meaning v, r) := by
  cases v with
  | null => rfl
  | tiny x =>
    simp [Spec.readBin, Value.columnType, ColumnType.toByte, Value.isUnsigned, Value.serialize,
      Spec.readNum, spec_readInt_u8, Spec.meaning, signed_int8]
  | short x =>
    simp [Spec.readBin, Value.columnType, ColumnType.toByte, Value.isUnsigned, Value.serialize,
      Spec.readNum, spec_readInt_u16, Spec.meaning, signed_int16]
  | int x =>
    simp [Spec.readBin, Value.columnType, ColumnType.toByte, Value.isUnsigned, Value.serialize,
      Spec.readNum, spec_readInt_u32, Spec.meaning, signed_int32]
  | long x =>
    simp [Spec.readBin, Value.columnType, ColumnType.toByte, Value.isUnsigned, Value.serialize,
      Spec.readNum, spec_readInt_u64, Spec.meaning, signed_int64]
  | utiny x =>
    simp [Spec.readBin, Value.columnType, ColumnType.toByte, Value.isUnsigned, Value.serialize,
      Spec.readNum, spec_readInt_u8, Spec.meaning]
  | ushort x =>
    simp [Spec.readBin, Value.columnType, ColumnType.toByte, Value.isUnsigned, Value.serialize,
      Spec.readNum, spec_readInt_u16, Spec.meaning]
  | uint x =>
    simp [Spec.readBin, Value.columnType, ColumnType.toByte, Value.isUnsigned, Value.serialize,
      Spec.readNum, spec_readInt_u32, Spec.meaning]
  | ulong x =>
    simp [Spec.readBin, Value.columnType, ColumnType.toByte, Value.isUnsigned, Value.serialize,
      Spec.readNum, spec_readInt_u64, Spec.meaning]
  | float x =>
    simp [Spec.readBin, Value.columnType, ColumnType.toByte, Value.serialize,
      spec_readInt_u32, Spec.meaning]
  | double x =>
    simp [Spec.readBin, Value.columnType, ColumnType.toByte, Value.serialize,
      spec_readInt_u64, Spec.meaning]
  | bytes x =>
    have h := hb x rfl
    have h2 : Spec.readLenencStr (putLenencSlice x ++ r) = some (x, r) := by
      rw [putLenencSlice_eq_spec h]; exact spec_readLenencStr_lenencStr r h
    simp [Spec.readBin, Value.columnType, ColumnType.toByte, Value.serialize, Spec.isStringType,
      h2, Spec.meaning]
  | date y m d =>
    simp [Spec.readBin, Value.columnType, ColumnType.toByte, Value.serialize,
      Spec.readDate, spec_readInt_cons, spec_readYmd, Spec.meaning]
  | datetime y mo d h mi s us =>
    have e : Spec.readBin 12 false = Spec.readDatetime := by
      funext bs; simp [Spec.readBin]
    have e' : Value.columnType (.datetime y mo d h mi s us) = .datetime := rfl
    rw [e']
    simp only [ColumnType.toByte, Value.isUnsigned]
    show Spec.readBin 12 false _ = _
    rw [e, Value.serialize]
    split
    · rename_i hz
      obtain ⟨rfl, rfl, rfl, rfl, rfl, rfl, rfl⟩ := hz
      rfl
    · split
      · rename_i hz
        obtain ⟨rfl, rfl, rfl, rfl⟩ := hz
        simp [Spec.readDatetime, spec_readInt_cons, spec_readYmd, Spec.meaning]
      · split
        · rename_i hz
          subst hz
          simp [Spec.readDatetime, spec_readInt_cons, spec_readYmd, spec_readHms, Spec.meaning]
        · simp [Spec.readDatetime, spec_readInt_cons, spec_readYmd, spec_readHms, Spec.meaning,
            spec_readInt_u32]
  | time neg d h m s us =>
    have e : Spec.readBin 11 false = Spec.readTime := by
      funext bs; simp [Spec.readBin]
    have e' : Value.columnType (.time neg d h m s us) = .time := rfl
    rw [e']
    simp only [ColumnType.toByte, Value.isUnsigned]
    show Spec.readBin 11 false _ = _
    rw [e, Value.serialize]
    split
    · rename_i hz
      obtain ⟨rfl, rfl, rfl, rfl, rfl⟩ := hz
      cases neg <;> rfl
    · split
      · rename_i hz
        subst hz
        cases neg <;>
          simp [Spec.readTime, spec_readInt_cons, spec_readHms, Spec.meaning, spec_readInt_u32]
      · cases neg <;>
          simp [Spec.readTime, spec_readInt_cons, spec_readHms, Spec.meaning, spec_readInt_u32]

/-! ### Decoder against reference reader -/

theorem spec_readInt_some {k n : Nat} {bs r : Bytes} (h : Spec.readInt k bs = some (n, r)) :
    k ≤ bs.length ∧ n = leNat (bs.take k) ∧ r = bs.drop k ∧ n < 256 ^ k ∧
      bs.length = k + r.length := by
  unfold Spec.readInt Spec.readN at h
  split at h
  · rename_i hl
    simp only [Option.map_some, Option.some.injEq, Prod.mk.injEq, spec_unle_eq] at h
    obtain ⟨h1, h2⟩ := h
    refine ⟨hl, h1.symm, h2.symm, ?_, ?_⟩
    · have := leNat_lt (bs.take k)
      rw [List.length_take, Nat.min_eq_left hl] at this
      omega
    · rw [← h2, List.length_drop]; omega
  · simp at h

theorem P.eatNat_of {k n : Nat} {bs r : Bytes} (h : Spec.readInt k bs = some (n, r)) :
    P.eatNat k bs = (.ok n, r) := by
  obtain ⟨h1, h2, h3, -, -⟩ := spec_readInt_some h
  have he : P.eat k bs = (.ok (bs.take k), bs.drop k) := by simp [P.eat, h1]
  rw [P.eatNat, SM.bind_of_ok he, h2, h3]; rfl

theorem P.checkedEatNat_of {k n : Nat} {bs r : Bytes} (h : Spec.readInt k bs = some (n, r)) :
    P.checkedEatNat k bs = (.ok n, r) := by
  obtain ⟨h1, h2, h3, -, -⟩ := spec_readInt_some h
  have he : P.checkedEat k bs = (.ok (bs.take k), bs.drop k) := by simp [P.checkedEat, P.eat, h1]
  rw [P.checkedEatNat, SM.bind_of_ok he, h2, h3]; rfl

theorem P.eatU8_of {n : Nat} {bs r : Bytes} (h : Spec.readInt 1 bs = some (n, r)) :
    P.eatU8 bs = (.ok (UInt8.ofNat n), r) := by
  rw [P.eatU8, SM.bind_of_ok (P.eatNat_of h)]; rfl
theorem P.eatU16_of {n : Nat} {bs r : Bytes} (h : Spec.readInt 2 bs = some (n, r)) :
    P.eatU16 bs = (.ok (UInt16.ofNat n), r) := by
  rw [P.eatU16, SM.bind_of_ok (P.eatNat_of h)]; rfl
theorem P.eatU32_of {n : Nat} {bs r : Bytes} (h : Spec.readInt 4 bs = some (n, r)) :
    P.eatU32 bs = (.ok (UInt32.ofNat n), r) := by
  rw [P.eatU32, SM.bind_of_ok (P.eatNat_of h)]; rfl
theorem P.checkedEatU8_of {n : Nat} {bs r : Bytes} (h : Spec.readInt 1 bs = some (n, r)) :
    P.checkedEatU8 bs = (.ok (UInt8.ofNat n), r) := by
  rw [P.checkedEatU8, SM.bind_of_ok (P.checkedEatNat_of h)]; rfl
theorem P.checkedEatU16_of {n : Nat} {bs r : Bytes} (h : Spec.readInt 2 bs = some (n, r)) :
    P.checkedEatU16 bs = (.ok (UInt16.ofNat n), r) := by
  rw [P.checkedEatU16, SM.bind_of_ok (P.checkedEatNat_of h)]; rfl
theorem P.checkedEatU24_of {n : Nat} {bs r : Bytes} (h : Spec.readInt 3 bs = some (n, r)) :
    P.checkedEatU24 bs = (.ok (UInt32.ofNat n), r) := by
  rw [P.checkedEatU24, SM.bind_of_ok (P.checkedEatNat_of h)]; rfl
theorem P.checkedEatU32_of {n : Nat} {bs r : Bytes} (h : Spec.readInt 4 bs = some (n, r)) :
    P.checkedEatU32 bs = (.ok (UInt32.ofNat n), r) := by
  rw [P.checkedEatU32, SM.bind_of_ok (P.checkedEatNat_of h)]; rfl
theorem P.checkedEatU64_of {n : Nat} {bs r : Bytes} (h : Spec.readInt 8 bs = some (n, r)) :
    P.checkedEatU64 bs = (.ok (UInt64.ofNat n), r) := by
  rw [P.checkedEatU64, SM.bind_of_ok (P.checkedEatNat_of h)]; rfl

theorem P.checkedEatLenencInt_of {n : Nat} {bs r : Bytes} (h : Spec.readLenenc bs = some (n, r)) :
    P.checkedEatLenencInt bs = (.ok (UInt64.ofNat n), r) ∧ n < 2 ^ 64 := by
  cases bs with
  | nil => simp [Spec.readLenenc] at h
  | cons b s =>
    have conv : ∀ k, k ≤ s.length → Spec.readInt k s = some (Spec.unle (s.take k), s.drop k) := by
      intro k hk; simp [Spec.readInt, Spec.readN, hk]
    have hb := b.toNat_lt
    simp only [Spec.readLenenc] at h
    rw [P.checkedEatLenencInt, SM.bind_of_ok (P.checkedEatU8_cons b s)]
    split at h
    · rename_i h1
      simp only [Option.some.injEq, Prod.mk.injEq] at h
      obtain ⟨rfl, rfl⟩ := h
      rw [if_pos h1]
      exact ⟨rfl, by omega⟩
    · rename_i h1
      rw [if_neg h1]
      split at h
      · rename_i h2
        rw [if_pos h2]
        split at h
        · rename_i hl
          have hr := conv 2 hl
          simp only [Option.some.injEq, Prod.mk.injEq] at h
          rw [h.1, h.2] at hr
          obtain ⟨-, -, -, hlt, -⟩ := spec_readInt_some hr
          rw [SM.bind_of_ok (P.checkedEatU16_of hr)]
          simp only [SM.pure_apply]
          rw [uint16_toNat_ofNat_of_lt (by omega)]
          exact ⟨rfl, by omega⟩
        · cases h
      · rename_i h2
        rw [if_neg h2]
        split at h
        · rename_i h3
          rw [if_pos h3]
          split at h
          · rename_i hl
            have hr := conv 3 hl
            simp only [Option.some.injEq, Prod.mk.injEq] at h
            rw [h.1, h.2] at hr
            obtain ⟨-, -, -, hlt, -⟩ := spec_readInt_some hr
            rw [SM.bind_of_ok (P.checkedEatU24_of hr)]
            simp only [SM.pure_apply]
            rw [uint32_toNat_ofNat_of_lt (by omega)]
            exact ⟨rfl, by omega⟩
          · cases h
        · rename_i h3
          rw [if_neg h3]
          split at h
          · rename_i h4
            rw [if_pos h4]
            split at h
            · rename_i hl
              have hr := conv 8 hl
              simp only [Option.some.injEq, Prod.mk.injEq] at h
              rw [h.1, h.2] at hr
              obtain ⟨-, -, -, hlt, -⟩ := spec_readInt_some hr
              exact ⟨P.checkedEatU64_of hr, by omega⟩
            · cases h
          · cases h

theorem P.checkedEatLenencSlice_of {s bs r : Bytes} (h : Spec.readLenencStr bs = some (s, r)) :
    P.checkedEatLenencSlice bs = (.ok s, r) := by
  unfold Spec.readLenencStr at h
  split at h
  · rename_i n r' hn
    obtain ⟨h1, h2⟩ := P.checkedEatLenencInt_of hn
    rw [P.checkedEatLenencSlice, SM.bind_of_ok h1, uint64_toNat_ofNat_of_lt h2]
    split at h
    · rename_i hl
      simp only [Option.some.injEq, Prod.mk.injEq] at h
      simp [P.checkedEat, P.eat, hl, h.1, h.2]
    · cases h
  · cases h

/-- inversion of `Option` binds in the reference readers. -/
theorem option_bind_some {α β : Type} {x : Option α} {f : α → Option β} {b : β}
    (h : (x >>= f) = some b) : ∃ a, x = some a ∧ f a = some b := by
  cases x with
  | none => simp at h
  | some a => exact ⟨a, rfl, h⟩

theorem readYmd_some {bs r : Bytes} {p : Nat × Nat × Nat} (h : Spec.readYmd bs = some (p, r)) :
    ∃ r1 r2, Spec.readInt 2 bs = some (p.1, r1) ∧ Spec.readInt 1 r1 = some (p.2.1, r2) ∧
      Spec.readInt 1 r2 = some (p.2.2, r) := by
  unfold Spec.readYmd at h
  obtain ⟨⟨y, r1⟩, h1, h⟩ := option_bind_some h
  obtain ⟨⟨m, r2⟩, h2, h⟩ := option_bind_some h
  obtain ⟨⟨d, r3⟩, h3, h⟩ := option_bind_some h
  simp only [pure, Option.some.injEq, Prod.mk.injEq] at h
  obtain ⟨rfl, rfl⟩ := h
  exact ⟨r1, r2, h1, h2, h3⟩

theorem readHms_some {bs r : Bytes} {p : Nat × Nat × Nat} (h : Spec.readHms bs = some (p, r)) :
    ∃ r1 r2, Spec.readInt 1 bs = some (p.1, r1) ∧ Spec.readInt 1 r1 = some (p.2.1, r2) ∧
      Spec.readInt 1 r2 = some (p.2.2, r) := by
  unfold Spec.readHms at h
  obtain ⟨⟨y, r1⟩, h1, h⟩ := option_bind_some h
  obtain ⟨⟨m, r2⟩, h2, h⟩ := option_bind_some h
  obtain ⟨⟨d, r3⟩, h3, h⟩ := option_bind_some h
  simp only [pure, Option.some.injEq, Prod.mk.injEq] at h
  obtain ⟨rfl, rfl⟩ := h
  exact ⟨r1, r2, h1, h2, h3⟩

theorem P.checkLen_ok {n : Nat} {bs : Bytes} (h : n ≤ bs.length) :
    P.checkLen n bs = (.ok (), bs) := by
  simp [P.checkLen, Nat.not_lt.mpr h]

theorem readInt_lt {k n : Nat} {bs r : Bytes} (h : Spec.readInt k bs = some (n, r)) :
    n < 256 ^ k := (spec_readInt_some h).2.2.2.1
theorem readInt_len {k n : Nat} {bs r : Bytes} (h : Spec.readInt k bs = some (n, r)) :
    bs.length = k + r.length := (spec_readInt_some h).2.2.2.2

theorem deserializeDate_of {bs r : Bytes} {d : Spec.Datum} (h : Spec.readDate bs = some (d, r)) :
    ∃ v, deserializeDate bs = (.ok v, r) ∧ Spec.meaning v = d := by
  unfold Spec.readDate at h
  obtain ⟨⟨len, r1⟩, h1, h⟩ := option_bind_some h
  have hlt := readInt_lt h1
  simp only at h
  unfold deserializeDate
  rw [SM.bind_of_ok (P.checkedEatU8_of h1)]
  have hlen : (UInt8.ofNat len).toNat = len := uint8_toNat_ofNat_of_lt (by omega)
  simp only [hlen]
  split at h
  · rename_i h0
    subst h0
    simp only [pure, Option.some.injEq, Prod.mk.injEq] at h
    obtain ⟨rfl, rfl⟩ := h
    rw [SM.bind_of_ok (P.checkLen_ok (Nat.zero_le _))]
    exact ⟨_, rfl, rfl⟩
  · split at h
    · rename_i h4
      subst h4
      obtain ⟨⟨⟨y, m, dd⟩, r2⟩, h2, h⟩ := option_bind_some h
      obtain ⟨s1, s2, g1, g2, g3⟩ := readYmd_some h2
      simp only [pure, Option.some.injEq, Prod.mk.injEq] at h
      obtain ⟨rfl, rfl⟩ := h
      have := readInt_len g1; have := readInt_len g2; have := readInt_len g3
      rw [SM.bind_of_ok (P.checkLen_ok (by omega)), if_pos (by omega),
        SM.bind_of_ok (P.eatU16_of g1), SM.bind_of_ok (P.eatU8_of g2),
        SM.bind_of_ok (P.eatU8_of g3)]
      have := readInt_lt g1; have := readInt_lt g2; have := readInt_lt g3
      refine ⟨_, rfl, ?_⟩
      simp only [Spec.meaning]
      rw [uint16_toNat_ofNat_of_lt (by omega), uint8_toNat_ofNat_of_lt (by omega),
        uint8_toNat_ofNat_of_lt (by omega)]
    · cases h

theorem deserializeDatetime_of {bs r : Bytes} {d : Spec.Datum}
    (h : Spec.readDatetime bs = some (d, r)) :
    ∃ v, deserializeDatetime bs = (.ok v, r) ∧ Spec.meaning v = d := by
  unfold Spec.readDatetime at h
  obtain ⟨⟨len, r1⟩, h1, h⟩ := option_bind_some h
  have hlt := readInt_lt h1
  simp only at h
  unfold deserializeDatetime
  rw [SM.bind_of_ok (P.checkedEatU8_of h1)]
  have hlen : (UInt8.ofNat len).toNat = len := uint8_toNat_ofNat_of_lt (by omega)
  simp only [hlen]
  split at h
  · rename_i h0
    subst h0
    simp only [pure, Option.some.injEq, Prod.mk.injEq] at h
    obtain ⟨rfl, rfl⟩ := h
    rw [SM.bind_of_ok (P.checkLen_ok (Nat.zero_le _))]
    exact ⟨_, rfl, rfl⟩
  · split at h
    · rename_i h4
      subst h4
      obtain ⟨⟨⟨y, m, dd⟩, r2⟩, h2, h⟩ := option_bind_some h
      obtain ⟨s1, s2, g1, g2, g3⟩ := readYmd_some h2
      simp only [pure, Option.some.injEq, Prod.mk.injEq] at h
      obtain ⟨rfl, rfl⟩ := h
      have := readInt_len g1; have := readInt_len g2; have := readInt_len g3
      dsimp only at *
      rw [SM.bind_of_ok (P.checkLen_ok (by omega)), if_pos (by omega)]
      simp only [SM.bind_apply, P.eatU16_of g1, P.eatU8_of g2, P.eatU8_of g3, SM.pure_apply]
      have := readInt_lt g1; have := readInt_lt g2; have := readInt_lt g3
      refine ⟨_, rfl, ?_⟩
      simp only [Spec.meaning]
      rw [uint16_toNat_ofNat_of_lt (by omega), uint8_toNat_ofNat_of_lt (by omega),
        uint8_toNat_ofNat_of_lt (by omega)]
      rfl
    · split at h
      · rename_i h7
        subst h7
        obtain ⟨⟨⟨y, m, dd⟩, r2⟩, h2, h⟩ := option_bind_some h
        obtain ⟨⟨⟨hh, mi, ss⟩, r3⟩, h3, h⟩ := option_bind_some h
        obtain ⟨s1, s2, g1, g2, g3⟩ := readYmd_some h2
        obtain ⟨s3, s4, g4, g5, g6⟩ := readHms_some h3
        simp only [pure, Option.some.injEq, Prod.mk.injEq] at h
        obtain ⟨rfl, rfl⟩ := h
        have := readInt_len g1; have := readInt_len g2; have := readInt_len g3
        have := readInt_len g4; have := readInt_len g5; have := readInt_len g6
        dsimp only at *
        rw [SM.bind_of_ok (P.checkLen_ok (by omega)), if_pos (by omega)]
        simp only [SM.bind_apply, P.eatU16_of g1, P.eatU8_of g2, P.eatU8_of g3, SM.pure_apply]
        rw [if_pos (by omega)]
        simp only [SM.bind_apply, P.eatU8_of g4, P.eatU8_of g5, P.eatU8_of g6, SM.pure_apply]
        have := readInt_lt g1; have := readInt_lt g2; have := readInt_lt g3
        have := readInt_lt g4; have := readInt_lt g5; have := readInt_lt g6
        refine ⟨_, rfl, ?_⟩
        simp only [Spec.meaning]
        rw [uint16_toNat_ofNat_of_lt (by omega)]
        repeat rw [uint8_toNat_ofNat_of_lt (by omega)]
        rfl
      · split at h
        · rename_i h11
          subst h11
          obtain ⟨⟨⟨y, m, dd⟩, r2⟩, h2, h⟩ := option_bind_some h
          obtain ⟨⟨⟨hh, mi, ss⟩, r3⟩, h3, h⟩ := option_bind_some h
          obtain ⟨⟨us, r4⟩, g7, h⟩ := option_bind_some h
          obtain ⟨s1, s2, g1, g2, g3⟩ := readYmd_some h2
          obtain ⟨s3, s4, g4, g5, g6⟩ := readHms_some h3
          simp only [pure, Option.some.injEq, Prod.mk.injEq] at h
          obtain ⟨rfl, rfl⟩ := h
          have := readInt_len g1; have := readInt_len g2; have := readInt_len g3
          have := readInt_len g4; have := readInt_len g5; have := readInt_len g6
          have := readInt_len g7
          dsimp only at *
          rw [SM.bind_of_ok (P.checkLen_ok (by omega)), if_pos (by omega)]
          simp only [SM.bind_apply, P.eatU16_of g1, P.eatU8_of g2, P.eatU8_of g3, SM.pure_apply]
          rw [if_pos (by omega)]
          simp only [SM.bind_apply, P.eatU8_of g4, P.eatU8_of g5, P.eatU8_of g6, SM.pure_apply]
          rw [if_pos (show UInt8.ofNat 11 = 11 from rfl)]
          rw [SM.bind_of_ok (P.eatU32_of g7)]
          have := readInt_lt g1; have := readInt_lt g2; have := readInt_lt g3
          have := readInt_lt g4; have := readInt_lt g5; have := readInt_lt g6
          have := readInt_lt g7
          refine ⟨_, rfl, ?_⟩
          simp only [Spec.meaning]
          rw [uint16_toNat_ofNat_of_lt (by omega), uint32_toNat_ofNat_of_lt (by omega)]
          repeat rw [uint8_toNat_ofNat_of_lt (by omega)]
        · cases h

theorem uint8_ofNat_beq_one {n : Nat} (h : n < 256) : (UInt8.ofNat n == 1) = (n == 1) := by
  have : UInt8.ofNat n = 1 ↔ n = 1 := by
    rw [← UInt8.toNat_inj, uint8_toNat_ofNat_of_lt h]; rfl
  by_cases e : n = 1
  · simp [e]
  · have e2 : ¬ UInt8.ofNat n = 1 := mt this.mp e
    rw [beq_eq_false_iff_ne.mpr e2, beq_eq_false_iff_ne.mpr e]

theorem deserializeTime_of {bs r : Bytes} {d : Spec.Datum} (h : Spec.readTime bs = some (d, r)) :
    ∃ v, deserializeTime bs = (.ok v, r) ∧ Spec.meaning v = d := by
  unfold Spec.readTime at h
  obtain ⟨⟨len, r1⟩, h1, h⟩ := option_bind_some h
  have hlt := readInt_lt h1
  simp only at h
  unfold deserializeTime
  rw [SM.bind_of_ok (P.checkedEatU8_of h1)]
  have hlen : (UInt8.ofNat len).toNat = len := uint8_toNat_ofNat_of_lt (by omega)
  simp only [hlen]
  split at h
  · rename_i h0
    subst h0
    simp only [pure, Option.some.injEq, Prod.mk.injEq] at h
    obtain ⟨rfl, rfl⟩ := h
    rw [SM.bind_of_ok (P.checkLen_ok (Nat.zero_le _))]
    exact ⟨_, rfl, rfl⟩
  · split at h
    · rename_i h8
      subst h8
      obtain ⟨⟨neg, r2⟩, g0, h⟩ := option_bind_some h
      obtain ⟨⟨days, r3⟩, g1, h⟩ := option_bind_some h
      obtain ⟨⟨⟨hh, mi, ss⟩, r4⟩, h3, h⟩ := option_bind_some h
      obtain ⟨s3, s4, g4, g5, g6⟩ := readHms_some h3
      simp only at h
      split at h
      · simp only [pure, Option.some.injEq, Prod.mk.injEq] at h
        obtain ⟨rfl, rfl⟩ := h
        have := readInt_len g0; have := readInt_len g1
        have := readInt_len g4; have := readInt_len g5; have := readInt_len g6
        dsimp only at *
        rw [SM.bind_of_ok (P.checkLen_ok (by omega)), if_pos (by omega)]
        simp only [SM.bind_apply, P.eatU8_of g0, P.eatU32_of g1, P.eatU8_of g4, P.eatU8_of g5,
          P.eatU8_of g6, SM.pure_apply]
        have := readInt_lt g0; have := readInt_lt g1
        have := readInt_lt g4; have := readInt_lt g5; have := readInt_lt g6
        refine ⟨_, rfl, ?_⟩
        simp only [Spec.meaning]
        rw [uint8_ofNat_beq_one (by omega), uint32_toNat_ofNat_of_lt (by omega)]
        repeat rw [uint8_toNat_ofNat_of_lt (by omega)]
        rfl
      · cases h
    · split at h
      · rename_i h12
        subst h12
        obtain ⟨⟨neg, r2⟩, g0, h⟩ := option_bind_some h
        obtain ⟨⟨days, r3⟩, g1, h⟩ := option_bind_some h
        obtain ⟨⟨⟨hh, mi, ss⟩, r4⟩, h3, h⟩ := option_bind_some h
        obtain ⟨⟨us, r5⟩, g7, h⟩ := option_bind_some h
        obtain ⟨s3, s4, g4, g5, g6⟩ := readHms_some h3
        simp only at h
        split at h
        · simp only [pure, Option.some.injEq, Prod.mk.injEq] at h
          obtain ⟨rfl, rfl⟩ := h
          have := readInt_len g0; have := readInt_len g1; have := readInt_len g7
          have := readInt_len g4; have := readInt_len g5; have := readInt_len g6
          dsimp only at *
          rw [SM.bind_of_ok (P.checkLen_ok (by omega)), if_pos (by omega)]
          simp only [SM.bind_apply, P.eatU8_of g0, P.eatU32_of g1, P.eatU8_of g4, P.eatU8_of g5,
            P.eatU8_of g6, SM.pure_apply]
          rw [if_pos (show UInt8.ofNat 12 = 12 from rfl)]
          rw [SM.bind_of_ok (P.eatU32_of g7)]
          have := readInt_lt g0; have := readInt_lt g1; have := readInt_lt g7
          have := readInt_lt g4; have := readInt_lt g5; have := readInt_lt g6
          refine ⟨_, rfl, ?_⟩
          simp only [Spec.meaning]
          rw [uint8_ofNat_beq_one (by omega), uint32_toNat_ofNat_of_lt (by omega),
            uint32_toNat_ofNat_of_lt (by omega)]
          repeat rw [uint8_toNat_ofNat_of_lt (by omega)]
        · cases h
      · cases h

theorem readNum_some {k : Nat} {u : Bool} {bs r : Bytes} {d : Spec.Datum}
    (h : Spec.readNum k u bs = some (d, r)) :
    ∃ n, Spec.readInt k bs = some (n, r) ∧
      d = .int k u (if u then (n : Int) else Spec.signed k n) := by
  unfold Spec.readNum at h
  obtain ⟨⟨n, r1⟩, h1, h⟩ := option_bind_some h
  simp only [pure, Option.some.injEq, Prod.mk.injEq] at h
  obtain ⟨rfl, rfl⟩ := h
  exact ⟨n, h1, rfl⟩

theorem deserializeTiny_of {u : Bool} {bs r : Bytes} {d : Spec.Datum}
    (h : Spec.readNum 1 u bs = some (d, r)) :
    ∃ v, deserializeTiny u bs = (.ok v, r) ∧ Spec.meaning v = d := by
  obtain ⟨n, h1, rfl⟩ := readNum_some h
  have hlt := readInt_lt h1
  unfold deserializeTiny
  cases u with
  | true =>
    simp only [if_true]
    rw [SM.bind_of_ok (P.checkedEatU8_of h1)]
    refine ⟨_, rfl, ?_⟩
    simp only [Spec.meaning, uint8_toNat_ofNat_of_lt (show n < 256 by omega)]
  | false =>
    simp only [Bool.false_eq_true, if_false]
    rw [SM.bind_of_ok (P.checkedEatU8_of h1)]
    refine ⟨_, rfl, ?_⟩
    have e := signed_int8 (UInt8.ofNat n).toInt8
    have e2 : (UInt8.ofNat n).toInt8.toUInt8.toNat = n := by
      rw [UInt8.toUInt8_toInt8]; exact uint8_toNat_ofNat_of_lt (by omega)
    rw [e2] at e
    simp only [Spec.meaning, ← e]

theorem deserializeShort_of {u : Bool} {bs r : Bytes} {d : Spec.Datum}
    (h : Spec.readNum 2 u bs = some (d, r)) :
    ∃ v, deserializeShort u bs = (.ok v, r) ∧ Spec.meaning v = d := by
  obtain ⟨n, h1, rfl⟩ := readNum_some h
  have hlt := readInt_lt h1
  unfold deserializeShort
  cases u with
  | true =>
    simp only [if_true]
    rw [SM.bind_of_ok (P.checkedEatU16_of h1)]
    refine ⟨_, rfl, ?_⟩
    simp only [Spec.meaning, uint16_toNat_ofNat_of_lt (show n < 2 ^ 16 by omega)]
  | false =>
    simp only [Bool.false_eq_true, if_false]
    rw [SM.bind_of_ok (P.checkedEatU16_of h1)]
    refine ⟨_, rfl, ?_⟩
    have e := signed_int16 (UInt16.ofNat n).toInt16
    have e2 : (UInt16.ofNat n).toInt16.toUInt16.toNat = n := by
      rw [UInt16.toUInt16_toInt16]; exact uint16_toNat_ofNat_of_lt (by omega)
    rw [e2] at e
    simp only [Spec.meaning, ← e]

theorem deserializeInt_of {u : Bool} {bs r : Bytes} {d : Spec.Datum}
    (h : Spec.readNum 4 u bs = some (d, r)) :
    ∃ v, deserializeInt u bs = (.ok v, r) ∧ Spec.meaning v = d := by
  obtain ⟨n, h1, rfl⟩ := readNum_some h
  have hlt := readInt_lt h1
  unfold deserializeInt
  cases u with
  | true =>
    simp only [if_true]
    rw [SM.bind_of_ok (P.checkedEatU32_of h1)]
    refine ⟨_, rfl, ?_⟩
    simp only [Spec.meaning, uint32_toNat_ofNat_of_lt (show n < 2 ^ 32 by omega)]
  | false =>
    simp only [Bool.false_eq_true, if_false]
    rw [SM.bind_of_ok (P.checkedEatU32_of h1)]
    refine ⟨_, rfl, ?_⟩
    have e := signed_int32 (UInt32.ofNat n).toInt32
    have e2 : (UInt32.ofNat n).toInt32.toUInt32.toNat = n := by
      rw [UInt32.toUInt32_toInt32]; exact uint32_toNat_ofNat_of_lt (by omega)
    rw [e2] at e
    simp only [Spec.meaning, ← e]

theorem deserializeLong_of {u : Bool} {bs r : Bytes} {d : Spec.Datum}
    (h : Spec.readNum 8 u bs = some (d, r)) :
    ∃ v, deserializeLong u bs = (.ok v, r) ∧ Spec.meaning v = d := by
  obtain ⟨n, h1, rfl⟩ := readNum_some h
  have hlt := readInt_lt h1
  unfold deserializeLong
  cases u with
  | true =>
    simp only [if_true]
    rw [SM.bind_of_ok (P.checkedEatU64_of h1)]
    refine ⟨_, rfl, ?_⟩
    simp only [Spec.meaning, uint64_toNat_ofNat_of_lt (show n < 2 ^ 64 by omega)]
  | false =>
    simp only [Bool.false_eq_true, if_false]
    rw [SM.bind_of_ok (P.checkedEatU64_of h1)]
    refine ⟨_, rfl, ?_⟩
    have e := signed_int64 (UInt64.ofNat n).toInt64
    have e2 : (UInt64.ofNat n).toInt64.toUInt64.toNat = n := by
      rw [UInt64.toUInt64_toInt64]; exact uint64_toNat_ofNat_of_lt (by omega)
    rw [e2] at e
    simp only [Spec.meaning, ← e]

/-- Whatever bytes the reference reader accepts for a column type, the connector's decoder accepts
with the same meaning and the same remaining bytes. -/
theorem deserializeBin_of (t : ColumnType) (flags : UInt16) {bs r : Bytes} {d : Spec.Datum}
    (h : Spec.readBin t.toByte.toNat (hasFlag16 flags ColFlag.UNSIGNED) bs = some (d, r)) :
    ∃ v, deserializeBin t flags bs = (.ok v, r) ∧ Spec.meaning v = d := by
  have str : (Spec.readLenencStr bs).map (fun p => (Spec.Datum.str p.1, p.2)) = some (d, r) →
      ∃ v, (do return Value.bytes (← P.checkedEatLenencSlice) : P Value) bs = (.ok v, r) ∧
        Spec.meaning v = d := by
    intro h
    rw [Option.map_eq_some_iff] at h
    obtain ⟨⟨s, r'⟩, h1, h2⟩ := h
    simp only [Prod.mk.injEq] at h2
    obtain ⟨rfl, rfl⟩ := h2
    rw [SM.bind_of_ok (P.checkedEatLenencSlice_of h1)]
    exact ⟨_, rfl, rfl⟩
  cases t
  case tiny => exact deserializeTiny_of h
  case short => exact deserializeShort_of h
  case year => exact deserializeShort_of h
  case long => exact deserializeInt_of h
  case int24 => exact deserializeInt_of h
  case longLong => exact deserializeLong_of h
  case float =>
    have h' : (Spec.readInt 4 bs).map (fun p => (Spec.Datum.float p.1, p.2)) = some (d, r) := h
    rw [Option.map_eq_some_iff] at h'
    obtain ⟨⟨n, r'⟩, h1, h2⟩ := h'
    simp only [Prod.mk.injEq] at h2
    obtain ⟨rfl, rfl⟩ := h2
    have := readInt_lt h1
    rw [deserializeBin, SM.bind_of_ok (P.checkedEatU32_of h1)]
    refine ⟨_, rfl, ?_⟩
    simp only [Spec.meaning, uint32_toNat_ofNat_of_lt (show n < 2 ^ 32 by omega)]
  case double =>
    have h' : (Spec.readInt 8 bs).map (fun p => (Spec.Datum.double p.1, p.2)) = some (d, r) := h
    rw [Option.map_eq_some_iff] at h'
    obtain ⟨⟨n, r'⟩, h1, h2⟩ := h'
    simp only [Prod.mk.injEq] at h2
    obtain ⟨rfl, rfl⟩ := h2
    have := readInt_lt h1
    rw [deserializeBin, SM.bind_of_ok (P.checkedEatU64_of h1)]
    refine ⟨_, rfl, ?_⟩
    simp only [Spec.meaning, uint64_toNat_ofNat_of_lt (show n < 2 ^ 64 by omega)]
  case null =>
    have h' : some (Spec.Datum.null, bs) = some (d, r) := h
    simp only [Option.some.injEq, Prod.mk.injEq] at h'
    obtain ⟨rfl, rfl⟩ := h'
    exact ⟨_, rfl, rfl⟩
  case date => exact deserializeDate_of h
  case datetime => exact deserializeDatetime_of h
  case timestamp => exact deserializeDatetime_of h
  case time => exact deserializeTime_of h
  case newDate => cases (show none = some (d, r) from h)
  case timestamp2 => cases (show none = some (d, r) from h)
  case datetime2 => cases (show none = some (d, r) from h)
  case time2 => cases (show none = some (d, r) from h)
  case typedArray => cases (show none = some (d, r) from h)
  case unknown => cases (show none = some (d, r) from h)
  all_goals exact str h

end Verif

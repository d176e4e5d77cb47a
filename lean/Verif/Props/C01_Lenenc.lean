import Verif.Proofs.Wire

/-!
# C01 — Length prefixes survive the wire
-/

namespace Verif

/-- Reading back a written length-encoded integer, whatever follows it. -/
theorem C01_lenenc_int_roundtrip (n : UInt64) (rest : Bytes) :
    P.checkedEatLenencInt (putLenencInt n ++ rest) = (.ok n, rest) ∧
    P.eatLenencInt (putLenencInt n ++ rest) = (.ok n, rest) :=
  ⟨P.checkedEatLenencInt_put n rest, P.eatLenencInt_put n rest⟩

/-- Same for a length-prefixed byte string (a Rust slice has fewer than 2^64 bytes). -/
theorem C01_lenenc_str_roundtrip (s rest : Bytes) (h : s.length < 2 ^ 64) :
    P.checkedEatLenencSlice (putLenencSlice s ++ rest) = (.ok s, rest) :=
  P.checkedEatLenencSlice_put rest h

/-- A reader that follows the protocol documentation understands what the connector writes, and
the connector understands what a writer that follows the documentation sends. -/
theorem C01_conforms (n : UInt64) (rest : Bytes) :
    Spec.readLenenc (putLenencInt n ++ rest) = some (n.toNat, rest) ∧
    P.checkedEatLenencInt (Spec.lenenc n.toNat ++ rest) = (.ok n, rest) := by
  constructor
  · rw [putLenencInt_eq_spec]; exact spec_readLenenc_lenenc rest n.toNat_lt
  · rw [← putLenencInt_eq_spec]; exact P.checkedEatLenencInt_put n rest

theorem C01_conforms_str (s rest : Bytes) (h : s.length < 2 ^ 64) :
    Spec.readLenencStr (putLenencSlice s ++ rest) = some (s, rest) ∧
    P.checkedEatLenencSlice (Spec.lenencStr s ++ rest) = (.ok s, rest) := by
  constructor
  · rw [putLenencSlice_eq_spec h]; exact spec_readLenencStr_lenencStr rest h
  · exact P.checkedEatLenencSlice_spec rest h

/-- The size computed in advance is the real size. -/
theorem C01_predicted_size (n : UInt64) (s : Bytes) (h : s.length < 2 ^ 64) :
    (putLenencInt n).length = lenencIntLen n.toNat ∧
    (putLenencSlice s).length = lenencSliceLen s :=
  ⟨length_putLenencInt n, length_putLenencSlice h⟩

/-- The first byte is never the NULL marker or the error marker, and it is the
end-of-result marker 0xFE only for values of at least 2^24. -/
theorem C01_first_byte (n : UInt64) :
    ∃ b t, putLenencInt n = b :: t ∧ b ≠ 0xFB ∧ b ≠ 0xFF ∧ (b = 0xFE → 2 ^ 24 ≤ n.toNat) := by
  obtain ⟨b, t, h, h1, h2, h3, -⟩ := spec_lenenc_head n.toNat []
  rw [List.append_nil] at h
  exact ⟨b, t, by rw [putLenencInt_eq_spec]; exact h, h1, h2, h3⟩

/-- Reading never invents bytes: on success the remaining buffer is a suffix of the input, and the
consumed part is at least one byte. -/
theorem C01_read_consumes {s rest : Bytes} {n : UInt64}
    (h : P.checkedEatLenencInt s = (.ok n, rest)) : ∃ a, s = a ++ rest ∧ 1 ≤ a.length := by
  have key : ∀ (k : Nat) (t t' : Bytes) (x : Nat), P.checkedEatNat k t = (.ok x, t') →
      ∃ a, t = a ++ t' ∧ a.length = k := by
    intro k t t' x hx
    rw [P.checkedEatNat, SM.bind_eq_ok] at hx
    obtain ⟨a, s', h1, h2⟩ := hx
    simp only [SM.pure_apply, Prod.mk.injEq, Out.ok.injEq] at h2
    unfold P.checkedEat P.eat at h1
    split at h1
    · simp only [Prod.mk.injEq, Out.ok.injEq] at h1
      refine ⟨t.take k, ?_, ?_⟩
      · rw [← h2.2, ← h1.2, List.take_append_drop]
      · rw [List.length_take]; omega
    · simp at h1
  rw [P.checkedEatLenencInt, SM.bind_eq_ok] at h
  obtain ⟨x, s1, h1, h2⟩ := h
  rw [P.checkedEatU8, SM.bind_eq_ok] at h1
  obtain ⟨y, s2, h3, h4⟩ := h1
  obtain ⟨a, ha, hl⟩ := key _ _ _ _ h3
  simp only [SM.pure_apply, Prod.mk.injEq] at h4
  rw [h4.2] at ha
  have sub : ∀ (k : Nat) (f : Nat → UInt64),
      (P.checkedEatNat k >>= fun v => (pure (f v) : P UInt64)) s1 = (.ok n, rest) →
      ∃ a, s = a ++ rest ∧ 1 ≤ a.length := by
    intro k f hk
    rw [SM.bind_eq_ok] at hk
    obtain ⟨v, s3, h5, h6⟩ := hk
    obtain ⟨a', ha', hl'⟩ := key _ _ _ _ h5
    simp only [SM.pure_apply, Prod.mk.injEq] at h6
    rw [h6.2] at ha'
    exact ⟨a ++ a', by rw [ha, ha', List.append_assoc], by rw [List.length_append]; omega⟩
  split at h2
  · simp only [SM.pure_apply, Prod.mk.injEq] at h2
    exact ⟨a, by rw [← h2.2]; exact ha, by omega⟩
  · split at h2
    · rw [SM.bind_eq_ok] at h2
      obtain ⟨v, s3, h5, h6⟩ := h2
      rw [P.checkedEatU16, SM.bind_eq_ok] at h5
      obtain ⟨w, s4, h7, h8⟩ := h5
      obtain ⟨a', ha', hl'⟩ := key _ _ _ _ h7
      simp only [SM.pure_apply, Prod.mk.injEq] at h6 h8
      rw [h8.2, h6.2] at ha'
      exact ⟨a ++ a', by rw [ha, ha', List.append_assoc], by rw [List.length_append]; omega⟩
    · split at h2
      · rw [SM.bind_eq_ok] at h2
        obtain ⟨v, s3, h5, h6⟩ := h2
        rw [P.checkedEatU24, SM.bind_eq_ok] at h5
        obtain ⟨w, s4, h7, h8⟩ := h5
        obtain ⟨a', ha', hl'⟩ := key _ _ _ _ h7
        simp only [SM.pure_apply, Prod.mk.injEq] at h6 h8
        rw [h8.2, h6.2] at ha'
        exact ⟨a ++ a', by rw [ha, ha', List.append_assoc], by rw [List.length_append]; omega⟩
      · split at h2
        · exact sub 8 _ h2
        · simp only [SM.pure_apply, Prod.mk.injEq] at h2
          exact ⟨a, by rw [← h2.2]; exact ha, by omega⟩

/-- Quirk kept in the model: the markers 0xFB and 0xFF read as the integer 0 without an error,
although the documentation says that they are not integers. -/
theorem C01_markers_read_as_zero (rest : Bytes) :
    P.checkedEatLenencInt (0xFB :: rest) = (.ok 0, rest) ∧
    P.checkedEatLenencInt (0xFF :: rest) = (.ok 0, rest) ∧
    Spec.readLenenc (0xFB :: rest) = none := by
  refine ⟨?_, ?_, ?_⟩
  · rw [P.checkedEatLenencInt, SM.bind_of_ok (P.checkedEatU8_cons _ _)]; rfl
  · rw [P.checkedEatLenencInt, SM.bind_of_ok (P.checkedEatU8_cons _ _)]; rfl
  · rfl

/-- Byte strings after a length of one or of four bytes: what a reader finds is the longest prefix whose
length can be written, and nothing is lost of what follows. -/
theorem C01_short_prefix (s rest : Bytes) :
    ((Spec.readInt 1 (putU8Slice s ++ rest)).bind fun x => Spec.readN x.1 x.2) = some (s.take 255, rest) ∧
    ((Spec.readInt 4 (putU32Slice s ++ rest)).bind fun x => Spec.readN x.1 x.2)
      = some (s.take 4294967295, rest) := by
  have e : ∀ n, s.take (min s.length n) = s.take n := fun n => by
    by_cases h : n ≤ s.length
    · rw [Nat.min_eq_right h]
    · rw [Nat.min_eq_left (by omega), List.take_of_length_le (by omega), List.take_of_length_le (by omega)]
  have key : ∀ k n, n < 256 ^ k →
      ((Spec.readInt k (leBytes k (min s.length n) ++ s.take (min s.length n) ++ rest)).bind
        fun x => Spec.readN x.1 x.2) = some (s.take n, rest) := fun k n hn => by
    rw [List.append_assoc, spec_readInt_leBytes _ (by omega), Option.bind_some,
      spec_readN_append _ _ (by rw [List.length_take]; omega), e]
  constructor
  · have := key 1 255 (by decide)
    rw [leBytes_one _ (by omega)] at this
    exact this
  · exact key 4 4294967295 (by decide)

/-- Reading a number of up to four bytes as documented; more bytes would panic, which frame headers, of
three bytes, do not. -/
theorem C01_read_u32 (bs : Bytes) :
    readU32 bs = if bs.length ≤ 4 then .ok (Spec.unle bs) else .panic := by
  rw [spec_unle_eq]
  rfl

-- concrete, non-trivial instances at every encoding boundary
example : putLenencInt 250 = [250] := by decide
example : putLenencInt 251 = [0xFC, 251, 0] := by decide
example : putLenencInt 65535 = [0xFC, 255, 255] := by decide
example : putLenencInt 65536 = [0xFD, 0, 0, 1] := by decide
example : putLenencInt 16777216 = [0xFE, 0, 0, 0, 1, 0, 0, 0, 0] := by decide
example : P.checkedEatLenencInt [0xFD, 0, 0, 1, 7, 8] = (.ok 65536, [7, 8]) := by decide
example : putU8Slice [1, 2, 3] = [3, 1, 2, 3] ∧ putU32Slice [1, 2, 3] = [3, 0, 0, 0, 1, 2, 3] := by decide
example : readU32 [0xFF, 0xFF, 0xFF] = .ok 16777215 := by decide
example : P.checkedEatLenencSlice (putLenencSlice [1, 2, 3] ++ [9]) = (.ok [1, 2, 3], [9]) := by
  decide

end Verif

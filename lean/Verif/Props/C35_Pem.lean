import Verif.Proofs.Rsa
import Verif.Spec.Pem
import Mathlib.Tactic.IntervalCases

/-!
# C35 Public keys parse to the key that was encoded
-/

namespace Verif

theorem length_i2osp (k n : Nat) : (Spec.i2osp k n).length = k := by
  induction k with
  | zero => rfl
  | succ k ih => simp [Spec.i2osp, ih]

theorem os2ip_i2osp (k n : Nat) : Spec.os2ip (Spec.i2osp k n) = n % 256 ^ k := by
  induction k with
  | zero => simp [Spec.i2osp, Spec.os2ip, Nat.mod_one]
  | succ k ih =>
    rw [Spec.i2osp, Spec.os2ip, ih, length_i2osp, UInt8.toNat_ofNat', pow_succ 256 k,
      Nat.mod_mul (a := 256 ^ k), show (2 : Nat) ^ 8 = 256 from rfl]
    ring

theorem derLen_derLength (n : Nat) (rest : Bytes) (hn : n < 2 ^ 64) :
    derLen (Spec.derLength n ++ rest) = (.ok n, rest) := by
  unfold Spec.derLength
  by_cases h : n < 128
  · rw [if_pos h]
    have e : (UInt8.ofNat n &&& 0x80 = 0x80) = False := by
      simp only [eq_iff_iff, iff_false]
      interval_cases n <;> decide
    simp only [List.cons_append, List.nil_append, derLen, e, if_false]
    rw [UInt8.toNat_ofNat', Nat.mod_eq_of_lt (by omega)]
  · rw [if_neg h]
    have hlog : n.log2 < 64 := (Nat.log2_lt (by omega)).2 hn
    have ho : Spec.octets n = n.log2 / 8 + 1 := by unfold Spec.octets; rw [if_neg (by omega)]
    have h8 : Spec.octets n ≤ 8 := by omega
    have h1 : 1 ≤ Spec.octets n := by omega
    have hlt := lt_pow_octets n
    generalize Spec.octets n = k at *
    have e1 : UInt8.ofNat (128 + k) &&& 0x80 = 0x80 := by interval_cases k <;> decide
    have e2 : (UInt8.ofNat (128 + k) &&& 0x7F).toNat = k := by interval_cases k <;> decide
    simp only [List.cons_append, derLen, e1, if_true, e2]
    rw [if_neg (by omega), if_neg (by rw [List.length_append, length_i2osp]; omega)]
    have t : (Spec.i2osp k n ++ rest).take k = Spec.i2osp k n := by
      rw [List.take_append_of_le_length (by rw [length_i2osp]),
        List.take_of_length_le (by rw [length_i2osp])]
    have d : (Spec.i2osp k n ++ rest).drop k = rest := by
      rw [List.drop_append_of_le_length (by rw [length_i2osp]),
        List.drop_of_length_le (by rw [length_i2osp]), List.nil_append]
    rw [t, d, beNat_eq_os2ip, os2ip_i2osp, Nat.mod_eq_of_lt hlt]

theorem derTake_append (a rest : Bytes) : derTake a.length (a ++ rest) = (.ok a, rest) := by
  unfold derTake
  rw [if_neg (by rw [List.length_append]; omega), List.take_left, List.drop_left]

theorem derTag_cons (t : UInt8) (rest : Bytes) : derTag t (t :: rest) = (.ok (), rest) := by
  simp [derTag]

theorem derSequence_tlv (a rest : Bytes) (ha : a.length < 2 ^ 64) :
    derSequence (Spec.tlv 0x30 a ++ rest) = (.ok a, rest) := by
  unfold derSequence Spec.tlv
  rw [List.append_assoc, List.cons_append, SM.bind_of_ok (derTag_cons _ _),
    SM.bind_of_ok (derLen_derLength _ _ ha), derTake_append]

theorem lt_pow_bitLength (n : Nat) : n < 256 ^ (Spec.bitLength n / 8 + 1) := by
  unfold Spec.bitLength
  by_cases h : n = 0
  · simp [h]
  · rw [if_neg h]
    have h1 : n < 2 ^ (n.log2 + 1) := Nat.lt_log2_self
    have h2 : 2 ^ (n.log2 + 1) ≤ 2 ^ (8 * ((n.log2 + 1) / 8 + 1)) :=
      Nat.pow_le_pow_right (by norm_num) (by omega)
    have h3 : (256 : Nat) ^ ((n.log2 + 1) / 8 + 1) = 2 ^ (8 * ((n.log2 + 1) / 8 + 1)) := by
      rw [pow_mul]; norm_num
    omega

theorem derUint_derInteger (n : Nat) (rest : Bytes) (hn : Spec.bitLength n / 8 + 1 < 2 ^ 64) :
    derUint (Spec.derInteger n ++ rest) = (.ok n, rest) := by
  unfold derUint Spec.derInteger Spec.tlv
  rw [List.append_assoc, List.cons_append, SM.bind_of_ok (derTag_cons _ _),
    SM.bind_of_ok (derLen_derLength _ _ (by rw [length_i2osp]; exact hn)),
    SM.bind_of_ok (derTake_append _ _), beNat_eq_os2ip, os2ip_i2osp,
    Nat.mod_eq_of_lt (lt_pow_bitLength n)]
  rfl

theorem derBitString_tlv (b : UInt8) (a rest : Bytes) (ha : a.length + 1 < 2 ^ 64) :
    derBitString (Spec.tlv 0x03 (b :: a) ++ rest) = (.ok (b, a), rest) := by
  unfold derBitString Spec.tlv
  rw [List.append_assoc, List.cons_append, SM.bind_of_ok (derTag_cons _ _),
    SM.bind_of_ok (derLen_derLength _ _ (by rw [List.length_cons]; exact ha))]
  simp only [derBits, List.cons_append, List.length_cons]
  rw [if_neg (by rw [List.length_append]; omega), Nat.add_sub_cancel, List.take_left, List.drop_left]

/-- content shorter than the whole. -/
theorem length_tlv (t : UInt8) (a : Bytes) : a.length < (Spec.tlv t a).length := by
  unfold Spec.tlv
  simp only [List.cons_append, List.length_cons, List.length_append]
  omega

theorem length_derInteger (n : Nat) :
    Spec.bitLength n / 8 + 1 < (Spec.derInteger n).length := by
  have := length_tlv 0x02 (Spec.i2osp (Spec.bitLength n / 8 + 1) n)
  rw [length_i2osp] at this
  exact this

theorem tryFromPkcs1_pkcs1 (m e : Nat) (hl : (Spec.pkcs1 m e).length < 2 ^ 64) :
    tryFromPkcs1 (Spec.pkcs1 m e) = .ok { modulus := m, exponent := e } := by
  have h1 := length_tlv 0x30 (Spec.derInteger m ++ Spec.derInteger e)
  have h2 : (Spec.tlv 0x30 (Spec.derInteger m ++ Spec.derInteger e)).length < 2 ^ 64 := hl
  rw [List.length_append] at h1
  have h3 := length_derInteger m
  have h4 := length_derInteger e
  unfold tryFromPkcs1 Spec.pkcs1
  have := derSequence_tlv (Spec.derInteger m ++ Spec.derInteger e) []
    (by rw [List.length_append]; omega)
  rw [List.append_nil] at this
  rw [this, Out.ok_bind, SM.bind_of_ok (derUint_derInteger m _ (by omega))]
  have h5 := derUint_derInteger e [] (by omega)
  rw [List.append_nil] at h5
  rw [SM.bind_of_ok h5]
  rfl

theorem tryFromPkcs8_spki (m e : Nat) (hl : (Spec.spki m e).length < 2 ^ 64) :
    tryFromPkcs8 (Spec.spki m e) = .ok { modulus := m, exponent := e } := by
  have h0 : ∀ alg : Bytes, alg.length < 128 →
      (Spec.tlv 0x30 (Spec.tlv 0x30 alg ++ Spec.tlv 0x03 (0 :: Spec.pkcs1 m e))).length < 2 ^ 64 →
      tryFromPkcs8 (Spec.tlv 0x30 (Spec.tlv 0x30 alg ++ Spec.tlv 0x03 (0 :: Spec.pkcs1 m e))) =
        .ok { modulus := m, exponent := e } := by
    intro alg ha hl
    have h1 := length_tlv 0x30 (Spec.tlv 0x30 alg ++ Spec.tlv 0x03 (0 :: Spec.pkcs1 m e))
    rw [List.length_append] at h1
    have h2 := length_tlv 0x03 (0 :: Spec.pkcs1 m e)
    rw [List.length_cons] at h2
    unfold tryFromPkcs8
    have := derSequence_tlv (Spec.tlv 0x30 alg ++ Spec.tlv 0x03 (0 :: Spec.pkcs1 m e)) []
      (by rw [List.length_append]; omega)
    rw [List.append_nil] at this
    rw [this, Out.ok_bind, SM.bind_of_ok (derSequence_tlv alg _ (by omega))]
    have h5 := derBitString_tlv 0 (Spec.pkcs1 m e) [] (by omega)
    rw [List.append_nil] at h5
    rw [h5, Out.ok_bind, if_neg (by simp), tryFromPkcs1_pkcs1 m e (by omega)]
  exact h0 _ (by decide) hl

theorem b64Char_spec : ∀ v < 64, b64Val (Spec.b64Char v) = some v ∧ Spec.b64Char v ≠ 61 ∧
    Spec.isSpace (Spec.b64Char v) = false := by
  decide +kernel

theorem b64Decode_b64Encode : ∀ bs : Bytes, b64Decode (Spec.b64Encode bs) = some bs
  | [] => rfl
  | [a] => by
    have ha := a.toNat_lt
    have h1 := b64Char_spec (a.toNat / 4) (by omega)
    have h2 := b64Char_spec (a.toNat % 4 * 16) (by omega)
    simp only [Spec.b64Encode, b64Decode, h1.1, h2.1, Option.bind_eq_bind, Option.bind_some]
    rw [if_pos trivial, if_pos ⟨trivial, trivial, by omega⟩]
    have : a.toNat / 4 * 4 + a.toNat % 4 * 16 / 16 = a.toNat := by omega
    rw [this, UInt8.ofNat_toNat]
    rfl
  | [a, b] => by
    have ha := a.toNat_lt
    have hb := b.toNat_lt
    have h1 := b64Char_spec (a.toNat / 4) (by omega)
    have h2 := b64Char_spec (a.toNat % 4 * 16 + b.toNat / 16) (by omega)
    have h3 := b64Char_spec (b.toNat % 16 * 4) (by omega)
    simp only [Spec.b64Encode, b64Decode, h1.1, h2.1, h3.1, Option.bind_eq_bind, Option.bind_some]
    rw [if_neg h3.2.1, if_pos trivial, if_pos ⟨trivial, by omega⟩]
    have e1 : a.toNat / 4 * 4 + (a.toNat % 4 * 16 + b.toNat / 16) / 16 = a.toNat := by omega
    have e2 : (a.toNat % 4 * 16 + b.toNat / 16) % 16 * 16 + b.toNat % 16 * 4 / 4 = b.toNat := by omega
    rw [e1, e2, UInt8.ofNat_toNat, UInt8.ofNat_toNat]
    rfl
  | a :: b :: c :: r => by
    have ha := a.toNat_lt
    have hb := b.toNat_lt
    have hc := c.toNat_lt
    have h1 := b64Char_spec (a.toNat / 4) (by omega)
    have h2 := b64Char_spec (a.toNat % 4 * 16 + b.toNat / 16) (by omega)
    have h3 := b64Char_spec (b.toNat % 16 * 4 + c.toNat / 64) (by omega)
    have h4 := b64Char_spec (c.toNat % 64) (by omega)
    have ih := b64Decode_b64Encode r
    simp only [Spec.b64Encode, b64Decode, h1.1, h2.1, h3.1, h4.1, ih, Option.bind_eq_bind,
      Option.bind_some]
    rw [if_neg h3.2.1, if_neg h4.2.1]
    have e1 : a.toNat / 4 * 4 + (a.toNat % 4 * 16 + b.toNat / 16) / 16 = a.toNat := by omega
    have e2 : (a.toNat % 4 * 16 + b.toNat / 16) % 16 * 16 +
        (b.toNat % 16 * 4 + c.toNat / 64) / 4 = b.toNat := by omega
    have e3 : (b.toNat % 16 * 4 + c.toNat / 64) % 4 * 64 + c.toNat % 64 = c.toNat := by omega
    rw [e1, e2, e3, UInt8.ofNat_toNat, UInt8.ofNat_toNat, UInt8.ofNat_toNat]
    rfl

theorem b64Encode_no_space : ∀ bs : Bytes, ∀ x ∈ Spec.b64Encode bs, (!Spec.isSpace x) = true
  | [] => by simp [Spec.b64Encode]
  | [a] => by
    have ha := a.toNat_lt
    have h1 := b64Char_spec (a.toNat / 4) (by omega)
    have h2 := b64Char_spec (a.toNat % 4 * 16) (by omega)
    intro x hx
    simp only [Spec.b64Encode, List.mem_cons, List.not_mem_nil, or_false] at hx
    rcases hx with rfl | rfl | rfl | rfl
    · simp [h1.2.2]
    · simp [h2.2.2]
    · decide
    · decide
  | [a, b] => by
    have ha := a.toNat_lt
    have hb := b.toNat_lt
    have h1 := b64Char_spec (a.toNat / 4) (by omega)
    have h2 := b64Char_spec (a.toNat % 4 * 16 + b.toNat / 16) (by omega)
    have h3 := b64Char_spec (b.toNat % 16 * 4) (by omega)
    intro x hx
    simp only [Spec.b64Encode, List.mem_cons, List.not_mem_nil, or_false] at hx
    rcases hx with rfl | rfl | rfl | rfl
    · simp [h1.2.2]
    · simp [h2.2.2]
    · simp [h3.2.2]
    · decide
  | a :: b :: c :: r => by
    have ha := a.toNat_lt
    have hb := b.toNat_lt
    have hc := c.toNat_lt
    have h1 := b64Char_spec (a.toNat / 4) (by omega)
    have h2 := b64Char_spec (a.toNat % 4 * 16 + b.toNat / 16) (by omega)
    have h3 := b64Char_spec (b.toNat % 16 * 4 + c.toNat / 64) (by omega)
    have h4 := b64Char_spec (c.toNat % 64) (by omega)
    intro x hx
    simp only [Spec.b64Encode, List.mem_cons] at hx
    rcases hx with rfl | rfl | rfl | rfl | hx
    · simp [h1.2.2]
    · simp [h2.2.2]
    · simp [h3.2.2]
    · simp [h4.2.2]
    · exact b64Encode_no_space r x hx

theorem pemSpace_eq (b : UInt8) : pemSpace b = Spec.isSpace b := by
  have h : ∀ n < 256, pemSpace (UInt8.ofNat n) = Spec.isSpace (UInt8.ofNat n) := by decide +kernel
  have := h b.toNat b.toNat_lt
  rwa [UInt8.ofNat_toNat] at this

theorem pemBody_markers (b body e : Bytes) : pemBody (b ++ body ++ e) b e = .ok body := by
  unfold pemBody
  have h : (b ++ body ++ e).length - e.length = (b ++ body).length := by
    rw [List.length_append (bs := e)]; omega
  rw [h, if_neg (by rw [List.length_append]; omega), List.take_left, List.drop_left]

theorem strip_text (t b body e : Bytes) (hb : ∀ x ∈ body, (!Spec.isSpace x) = true)
    (h : Spec.SameText t (b ++ body ++ e)) :
    t.filter (fun b => !pemSpace b) =
      b.filter (!Spec.isSpace ·) ++ body ++ e.filter (!Spec.isSpace ·) := by
  unfold Spec.SameText at h
  simp only [pemSpace_eq]
  rw [h, List.filter_append, List.filter_append, List.filter_eq_self.2 hb]

/-- **C35** (PKCS#1): every text that is, up to white space, the PEM text of a key parses to exactly
that key; the only bound is that the encoding is shorter than 2⁶⁴ bytes. -/
theorem C35_pkcs1 (m e : Nat) (t : Bytes) (hl : (Spec.pkcs1 m e).length < 2 ^ 64)
    (h : Spec.SameText t (Spec.pemPkcs1 m e)) :
    tryFromPem t = .ok { modulus := m, exponent := e } := by
  have hs := strip_text t _ _ _ (b64Encode_no_space _) h
  have eb : (Spec.text "-----BEGIN RSA PUBLIC KEY-----").filter (!Spec.isSpace ·) = pkcs1Begin := by
    decide +kernel
  have ee : (Spec.text "-----END RSA PUBLIC KEY-----").filter (!Spec.isSpace ·) = pkcs1End := by
    decide +kernel
  rw [eb, ee] at hs
  unfold tryFromPem
  simp only []
  rw [hs, if_pos, pemBody_markers]
  · simp only [Out.map'_ok, Out.ok_bind]
    rw [b64Decode_b64Encode]
    exact tryFromPkcs1_pkcs1 m e hl
  · constructor
    · rw [List.isPrefixOf_iff_prefix, List.append_assoc]; exact List.prefix_append _ _
    · rw [List.isSuffixOf_iff_suffix]; exact List.suffix_append _ _

/-- **C35** (PKCS#8 / SubjectPublicKeyInfo): likewise. -/
theorem C35_pkcs8 (m e : Nat) (t : Bytes) (hl : (Spec.spki m e).length < 2 ^ 64)
    (h : Spec.SameText t (Spec.pemSpki m e)) :
    tryFromPem t = .ok { modulus := m, exponent := e } := by
  have hs := strip_text t _ _ _ (b64Encode_no_space _) h
  have eb : (Spec.text "-----BEGIN PUBLIC KEY-----").filter (!Spec.isSpace ·) = pkcs8Begin := by
    decide +kernel
  have ee : (Spec.text "-----END PUBLIC KEY-----").filter (!Spec.isSpace ·) = pkcs8End := by
    decide +kernel
  rw [eb, ee] at hs
  unfold tryFromPem
  simp only []
  rw [hs, if_neg, if_pos, pemBody_markers]
  · simp only [Out.map'_ok, Out.ok_bind]
    rw [b64Decode_b64Encode]
    exact tryFromPkcs8_spki m e hl
  · constructor
    · rw [List.isPrefixOf_iff_prefix, List.append_assoc]; exact List.prefix_append _ _
    · rw [List.isSuffixOf_iff_suffix]; exact List.suffix_append _ _
  · rintro ⟨h1, _⟩
    rw [List.isPrefixOf_iff_prefix, List.append_assoc] at h1
    have : pkcs1Begin.take 11 = (pkcs8Begin ++ (Spec.b64Encode (Spec.spki m e) ++ pkcs8End)).take 11 := by
      obtain ⟨x, hx⟩ := h1
      rw [← hx, List.take_append_of_le_length (by decide +kernel)]
    rw [List.take_append_of_le_length (by decide +kernel)] at this
    exact absurd this (by decide +kernel)

/-- `t` without white space begins with the one marker and ends with the other. -/
def Spec.Enclosed (t : Bytes) (b e : String) : Prop :=
  (Spec.text b).filter (!Spec.isSpace ·) <+: t.filter (!Spec.isSpace ·) ∧
  (Spec.text e).filter (!Spec.isSpace ·) <:+ t.filter (!Spec.isSpace ·)

/-- **C35** (markers): a text that, up to white space, does not begin and end with one of the two
pairs of markers is rejected with an error, whatever is in it. -/
theorem C35_other_markers (t : Bytes)
    (h1 : ¬ Spec.Enclosed t "-----BEGIN RSA PUBLIC KEY-----" "-----END RSA PUBLIC KEY-----")
    (h8 : ¬ Spec.Enclosed t "-----BEGIN PUBLIC KEY-----" "-----END PUBLIC KEY-----") :
    tryFromPem t = .err .invalidPem := by
  have b1 : (Spec.text "-----BEGIN RSA PUBLIC KEY-----").filter (!Spec.isSpace ·) = pkcs1Begin := by
    decide +kernel
  have e1 : (Spec.text "-----END RSA PUBLIC KEY-----").filter (!Spec.isSpace ·) = pkcs1End := by
    decide +kernel
  have b8 : (Spec.text "-----BEGIN PUBLIC KEY-----").filter (!Spec.isSpace ·) = pkcs8Begin := by
    decide +kernel
  have e8 : (Spec.text "-----END PUBLIC KEY-----").filter (!Spec.isSpace ·) = pkcs8End := by
    decide +kernel
  unfold Spec.Enclosed at h1 h8
  rw [b1, e1] at h1
  rw [b8, e8] at h8
  unfold tryFromPem
  simp only [pemSpace_eq]
  rw [if_neg (by rwa [List.isPrefixOf_iff_prefix, List.isSuffixOf_iff_suffix]),
    if_neg (by rwa [List.isPrefixOf_iff_prefix, List.isSuffixOf_iff_suffix])]
  rfl

/-- the markers may share their dashes; such a text is neither rejected nor parsed, it panics. -/
theorem C35_overlap_violated :
    tryFromPem (Spec.text "-----BEGIN PUBLIC KEY-----END PUBLIC KEY-----") = .panic := by
  decide +kernel

/-- a real (tiny) key, wrapped after every five characters: modulus 3233, exponent 17. -/
example : tryFromPem (Spec.text "-----BEGIN RSA PUBLIC KEY-----\nMAcCA\r\ngyhAg\tER\n-----END RSA PUBLIC KEY-----\n")
    = .ok { modulus := 3233, exponent := 17 } := by
  decide +kernel

/-- an exponent above 2¹⁰²⁴ needs the long form of the length. -/
example : tryFromPem (Spec.pemSpki (2 ^ 1024 + 643) 65537) =
    .ok { modulus := 2 ^ 1024 + 643, exponent := 65537 } := by
  decide +kernel

end Verif

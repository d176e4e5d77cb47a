import Verif.Props.C35_PemExact
import Verif.Props.C34_Rsa
import Verif.Props.C78_LoginStreams

/-!
# C79: which greetings, which key texts and which keys break a client

C78 says at which points of a login the client panics; here is, for each of them, exactly what the server has to send:
the version texts, the texts sent as a key and the keys. All of them are shorter or longer than they should be; what is
only wrong is refused with an error.
-/

namespace Verif

namespace Spec

/-! ### Texts of keys -/

/-- the beginning, but not all, of a group with this tag. -/
def Cut (tag : UInt8) (bytes : Bytes) : Prop :=
  ∃ l content, BerLength l content.length ∧ bytes <+: tag :: l ++ content ∧ bytes ≠ tag :: l ++ content

/-- one of the groups of a key ends early. -/
def CutPkcs1 (bytes : Bytes) : Prop :=
  Cut 0x30 bytes ∨ ∃ seq r0, Group 0x30 seq r0 bytes ∧ (Cut 0x02 seq ∨ ∃ m r1, Group 0x02 m r1 seq ∧ Cut 0x02 r1)

/-- … or there is no room for the number of unused bits. -/
def CutSpki (bytes : Bytes) : Prop :=
  Cut 0x30 bytes ∨ ∃ seq r0, Group 0x30 seq r0 bytes ∧ (Cut 0x30 seq ∨ ∃ alg r1, Group 0x30 alg r1 seq ∧
    (Cut 0x03 r1 ∨ (∃ r2, Group 0x03 [] r2 r1) ∨ ∃ key r2, Group 0x03 (0 :: key) r2 r1 ∧ CutPkcs1 key))

/-- the two markers share one to five dashes. -/
def SharedDashes (t : Bytes) : Prop :=
  ∃ k, 1 ≤ k ∧ k ≤ 5 ∧
    (SameText t (text "-----BEGIN RSA PUBLIC KEY-----" ++ (text "-----END RSA PUBLIC KEY-----").drop k) ∨
     SameText t (text "-----BEGIN PUBLIC KEY-----" ++ (text "-----END PUBLIC KEY-----").drop k))

/-! ### Encryption -/

/-- RFC 8017 7.1.1 step 2, for 20-byte digests and an empty label. -/
def oaepEncode (hash : Bytes → Bytes) (seed message : Bytes) (k : Nat) : Bytes :=
  let db := hash [] ++ List.replicate (k - message.length - 42) 0 ++ [1] ++ message
  let maskedDb := xor db (mgf1 hash seed (k - 21))
  [0] ++ xor seed (mgf1 hash maskedDb 20) ++ maskedDb

/-- the size of the blocks the client makes: one less than the octets of the modulus if their first one is 1. -/
def blockSize (n : Nat) : Nat := (bitLength n + 6) / 8

/-! ### Versions -/

/-- a number in decimal digits, possibly with leading zeros. -/
def NumberText (w : Str) (n : Nat) : Prop :=
  w ≠ [] ∧ (∀ c ∈ w, 48 ≤ c.toNat ∧ c.toNat ≤ 57) ∧ n = w.foldl (fun acc c => 10 * acc + (c.toNat - 48)) 0

/-- after so many bytes of the text a character begins or the text ends. -/
def Boundary (s : Str) (n : Nat) : Prop := ∃ p q, s = p ++ q ∧ (utf8 p).length = n

/-- the text has a separator, and its position counted in characters, or the next one, is taken for a number of bytes
that ends within a character. -/
def Slips (alnum : Char → Bool) (s : Str) : Prop :=
  ∃ w x r, s = w ++ x :: r ∧ (∀ c ∈ w, alnum c = true) ∧ alnum x = false ∧
    (¬ Boundary s w.length ∨ ¬ Boundary s (w.length + 1))

/-- a number and a separator of one byte. -/
def NumberThen (alnum : Char → Bool) (s : Str) (n : UInt16) (rest : Str) : Prop :=
  ∃ w x, NumberText w n.toNat ∧ alnum x = false ∧ x.toNat < 128 ∧ s = w ++ x :: rest

/-- three numbers; `rest` is what follows the separator after the third. -/
def VersionForm (alnum : Char → Bool) (s : Str) (a b c : UInt16) (rest : Str) : Prop :=
  ∃ s1 s2, NumberThen alnum s a s1 ∧ NumberThen alnum s1 b s2 ∧
    (NumberThen alnum s2 c rest ∨ (NumberText s2 c.toNat ∧ rest = []))

/-- the version text slips at the first, second or third number. -/
def VersionBreaks (alnum : Char → Bool) (s : Str) : Prop :=
  Slips alnum s ∨ ∃ a s1, NumberThen alnum s a s1 ∧ (Slips alnum s1 ∨ ∃ b s2, NumberThen alnum s1 b s2 ∧ Slips alnum s2)

end Spec

/-! ### Texts of keys -/

theorem berLength_exists (os : Bytes) (h : os.length ≤ 8) :
    ∃ content : Bytes, Spec.BerLength (UInt8.ofNat (128 + os.length) :: os) content.length :=
  ⟨List.replicate (Spec.os2ip os) 0, .inr ⟨os, h, rfl, by rw [List.length_replicate]⟩⟩

theorem derTag_panic (t : UInt8) (s s' : Bytes) : derTag t s = (.panic, s') ↔ s = [] ∧ s' = [] := by
  cases s with
  | nil => simp [derTag, eq_comm]
  | cons b r => by_cases h : b = t <;> simp [derTag, h]

theorem derLen_panic (s : Bytes) :
    (derLen s).1 = .panic ↔ s = [] ∨ ∃ os more : Bytes, os.length + more.length ≤ 8 ∧ more ≠ [] ∧
      s = UInt8.ofNat (128 + (os.length + more.length)) :: os := by
  have hbit : ∀ k < 256, (UInt8.ofNat k &&& 0x80 = 0x80 ↔ 128 ≤ k) ∧
      (128 ≤ k → (UInt8.ofNat k &&& 0x7F).toNat = k - 128) := by decide +kernel
  cases s with
  | nil => simp [derLen]
  | cons b r =>
    have hb := hbit b.toNat b.toNat_lt
    rw [UInt8.ofNat_toNat] at hb
    unfold derLen
    simp only
    by_cases h : b &&& 0x80 = 0x80
    · rw [if_pos h]
      have h128 := hb.1.1 h
      rw [hb.2 h128]
      constructor
      · intro hx
        split at hx
        · simp at hx
        · split at hx
          · rename_i h8 hlen
            refine Or.inr ⟨r, List.replicate (b.toNat - 128 - r.length) 0, ?_, ?_, ?_⟩
            · rw [List.length_replicate]; omega
            · intro h0
              have := congrArg List.length h0
              rw [List.length_replicate, List.length_nil] at this
              omega
            · rw [List.length_replicate, show 128 + (r.length + (b.toNat - 128 - r.length)) = b.toNat by omega,
                UInt8.ofNat_toNat]
          · simp at hx
      · rintro (hx | ⟨os, more, h8, hm, hx⟩)
        · simp at hx
        · simp only [List.cons.injEq] at hx
          have hm' : 0 < more.length := List.length_pos_iff.2 hm
          have e : b.toNat = 128 + (os.length + more.length) := by
            rw [hx.1, UInt8.toNat_ofNat', Nat.mod_eq_of_lt (by omega)]
          rw [if_neg (by omega), if_pos (by rw [hx.2]; omega)]
    · rw [if_neg h]
      have h128 : b.toNat < 128 := by
        by_contra hx
        exact h (hb.1.2 (by omega))
      constructor
      · intro hx; simp at hx
      · rintro (hx | ⟨os, more, h8, hm, hx⟩)
        · simp at hx
        · simp only [List.cons.injEq] at hx
          rw [hx.1, UInt8.toNat_ofNat', Nat.mod_eq_of_lt (by omega)] at h128
          omega

theorem derTake_panic (n : Nat) (s : Bytes) : (derTake n s).1 = .panic ↔ s.length < n := by
  unfold derTake
  by_cases h : s.length < n
  · simp [h]
  · simp [h]

theorem fst_bind_panic {σ ε α β : Type} (m : SM σ ε α) (f : α → SM σ ε β) (s : σ) :
    ((m >>= f) s).1 = .panic ↔ (m s).1 = .panic ∨ ∃ a s', m s = (.ok a, s') ∧ (f a s').1 = .panic := by
  cases h : m s with
  | mk o s' =>
    cases o with
    | ok a => rw [SM.bind_of_ok h]; simp
    | err e => rw [SM.bind_of_err h]; simp
    | panic => rw [SM.bind_of_panic h]; simp

/-- a group is cut exactly if reading it runs out of bytes. -/
theorem group_panic (t : UInt8) (s : Bytes) :
    ((derTag t >>= fun _ => derLen >>= fun n => derTake n) s).1 = .panic ↔ Spec.Cut t s := by
  rw [fst_bind_panic]
  simp only [fst_bind_panic, derTake_panic, derLen_panic]
  constructor
  · rintro (h | ⟨_, s1, h1, h | ⟨n, s2, h2, h3⟩⟩)
    · cases s with
      | nil =>
        refine ⟨[0], [], .inl ⟨by simp, rfl⟩, List.nil_prefix, by simp⟩
      | cons b r => by_cases hb : b = t <;> simp [derTag, hb] at h
    · have e1 := (derTag_iff t s s1).1 h1
      rcases h with rfl | ⟨os, more, h8, hm, rfl⟩
      · refine ⟨[0], [], .inl ⟨by simp, rfl⟩, ?_, ?_⟩
        · rw [e1]; exact ⟨[0], rfl⟩
        · rw [e1]; simp
      · obtain ⟨content, hc⟩ := berLength_exists (os ++ more) (by rw [List.length_append]; exact h8)
        refine ⟨_, content, hc, ?_, ?_⟩
        · rw [e1, List.length_append]
          exact ⟨more ++ content, by simp⟩
        · rw [e1]
          intro h
          have := congrArg List.length h
          have hm' : 0 < more.length := List.length_pos_iff.2 hm
          simp only [List.length_cons, List.length_append] at this
          omega
    · have e1 := (derTag_iff t s s1).1 h1
      obtain ⟨l, hl, e2⟩ := (derLen_iff _ _ _).1 h2
      refine ⟨l, s2 ++ List.replicate (n - s2.length) 0, ?_, ?_, ?_⟩
      · rw [List.length_append, List.length_replicate, show s2.length + (n - s2.length) = n by omega]
        exact hl
      · rw [e1, e2]
        exact ⟨List.replicate (n - s2.length) 0, by simp⟩
      · rw [e1, e2]
        intro h
        have := congrArg List.length h
        simp only [List.length_cons, List.length_append, List.length_replicate] at this
        omega
  · rintro ⟨l, content, hl, ⟨more, hm⟩, hne⟩
    cases s with
    | nil => exact Or.inl rfl
    | cons b r =>
      simp only [List.cons_append, List.cons.injEq] at hm
      obtain ⟨rfl, hm⟩ := hm
      refine Or.inr ⟨(), r, (derTag_iff _ _ _).2 rfl, ?_⟩
      have hm0 : more ≠ [] := by
        rintro rfl
        rw [List.append_nil] at hm
        exact hne (by rw [hm]; rfl)
      rcases Nat.lt_or_ge r.length l.length with hlt | hge
      · refine Or.inl ?_
        have hr : r <+: l := List.prefix_of_prefix_length_le ⟨more, hm⟩ ⟨content, rfl⟩ (by omega)
        obtain ⟨m2, hm2⟩ := hr
        cases r with
        | nil => exact Or.inl rfl
        | cons x os =>
          refine Or.inr ⟨os, m2, ?_⟩
          have h2 : m2 ≠ [] := by
            rintro rfl
            rw [List.append_nil] at hm2
            rw [hm2] at hlt
            omega
          rcases hl with ⟨_, rfl⟩ | ⟨o2, h8, rfl, _⟩
          · simp only [List.cons_append, List.cons.injEq, List.append_eq_nil_iff] at hm2
            exact absurd hm2.2.2 h2
          · simp only [List.cons_append, List.cons.injEq] at hm2
            have : o2.length = os.length + m2.length := by rw [← hm2.2, List.length_append]
            exact ⟨by omega, h2, by rw [hm2.1, this]⟩
      · refine Or.inr ⟨content.length, r.drop l.length, (derLen_iff _ _ _).2 ⟨l, hl, ?_⟩, ?_⟩
        · have : l <+: r := List.prefix_of_prefix_length_le ⟨content, rfl⟩ ⟨more, hm⟩ hge
          obtain ⟨z, rfl⟩ := this
          rw [List.drop_left]
        · have := congrArg List.length hm
          have hm' : 0 < more.length := List.length_pos_iff.2 hm0
          rw [List.length_append, List.length_append] at this
          rw [List.length_drop]
          omega

theorem derSequence_panic (s : Bytes) : (derSequence s).1 = .panic ↔ Spec.Cut 0x30 s := group_panic 0x30 s

theorem derUint_panic (s : Bytes) : (derUint s).1 = .panic ↔ Spec.Cut 0x02 s := by
  rw [← group_panic]
  unfold derUint
  simp only [fst_bind_panic]
  constructor
  · rintro (h | ⟨_, s1, h1, h | ⟨n, s2, h2, h | ⟨a, s3, _, h⟩⟩⟩)
    · exact .inl h
    · exact .inr ⟨(), s1, h1, .inl h⟩
    · exact .inr ⟨(), s1, h1, .inr ⟨n, s2, h2, h⟩⟩
    · cases h
  · rintro (h | ⟨_, s1, h1, h | ⟨n, s2, h2, h⟩⟩)
    · exact .inl h
    · exact .inr ⟨(), s1, h1, .inl h⟩
    · exact .inr ⟨(), s1, h1, .inr ⟨n, s2, h2, .inl h⟩⟩

theorem derBits_panic (n : Nat) (s : Bytes) : (derBits n s).1 = .panic ↔ n = 0 ∨ s.length < n := by
  cases s with
  | nil => simp [derBits]; omega
  | cons b r =>
    unfold derBits
    simp only [List.length_cons]
    by_cases h : n = 0 ∨ r.length + 1 < n
    · rw [if_pos h]; simp [h]
    · rw [if_neg h]; simp [h]

theorem derBitString_panic (s : Bytes) :
    (derBitString s).1 = .panic ↔ Spec.Cut 0x03 s ∨ ∃ r, Spec.Group 0x03 [] r s := by
  rw [← group_panic]
  unfold derBitString
  simp only [fst_bind_panic, derBits_panic, derTake_panic]
  constructor
  · rintro (h | ⟨_, s1, h1, h | ⟨n, s2, h2, h | h⟩⟩)
    · exact .inl (.inl h)
    · exact .inl (.inr ⟨(), s1, h1, .inl h⟩)
    · subst h
      obtain ⟨l, hl, e⟩ := (derLen_iff _ _ _).1 h2
      exact .inr ⟨s2, l, hl, by rw [(derTag_iff _ _ _).1 h1, e]; simp⟩
    · exact .inl (.inr ⟨(), s1, h1, .inr ⟨n, s2, h2, h⟩⟩)
  · rintro ((h | ⟨_, s1, h1, h | ⟨n, s2, h2, h⟩⟩) | ⟨r, l, hl, e⟩)
    · exact .inl h
    · exact .inr ⟨(), s1, h1, .inl h⟩
    · exact .inr ⟨(), s1, h1, .inr ⟨n, s2, h2, .inr h⟩⟩
    · refine .inr ⟨(), l ++ r, (derTag_iff _ _ _).2 (by rw [e]; simp), .inr ⟨0, r, (derLen_iff _ _ _).2 ⟨l, hl, rfl⟩,
        .inl rfl⟩⟩

theorem out_bind_panic {ε α β : Type} (x : Out ε α) (f : α → Out ε β) :
    (x >>= f) = .panic ↔ x = .panic ∨ ∃ a, x = .ok a ∧ f a = .panic := by
  cases x with
  | ok a => rw [Out.ok_bind]; simp
  | err e => simp
  | panic => simp

theorem tryFromPkcs1_panic (der : Bytes) : tryFromPkcs1 der = .panic ↔ Spec.CutPkcs1 der := by
  unfold tryFromPkcs1 Spec.CutPkcs1
  rw [out_bind_panic, derSequence_panic]
  simp only [fst_bind_panic, derUint_panic, fst_eq_ok, derSequence_iff, derUint_iff]
  constructor
  · rintro (h | ⟨seq, ⟨r0, h0⟩, h | ⟨m, r1, ⟨c, h1, _⟩, h | ⟨e, r2, _, h⟩⟩⟩)
    · exact .inl h
    · exact .inr ⟨seq, r0, h0, .inl h⟩
    · exact .inr ⟨seq, r0, h0, .inr ⟨c, r1, h1, h⟩⟩
    · cases h
  · rintro (h | ⟨seq, r0, h0, h | ⟨c, r1, h1, h⟩⟩)
    · exact .inl h
    · exact .inr ⟨seq, ⟨r0, h0⟩, .inl h⟩
    · exact .inr ⟨seq, ⟨r0, h0⟩, .inr ⟨_, r1, ⟨c, h1, rfl⟩, .inl h⟩⟩

theorem tryFromPkcs8_panic (der : Bytes) : tryFromPkcs8 der = .panic ↔ Spec.CutSpki der := by
  unfold tryFromPkcs8 Spec.CutSpki
  rw [out_bind_panic, derSequence_panic]
  simp only [out_bind_panic, fst_bind_panic, derSequence_panic, derBitString_panic, fst_eq_ok, derSequence_iff,
    SM.bind_eq_ok]
  constructor
  · rintro (h | ⟨seq, ⟨r0, h0⟩, (h | ⟨alg, r1, h1, h⟩) | ⟨⟨b, key⟩, ⟨r2, alg, r1, h1, h2⟩, h⟩⟩)
    · exact .inl h
    · exact .inr ⟨seq, r0, h0, .inl h⟩
    · rcases h with h | h
      · exact .inr ⟨seq, r0, h0, .inr ⟨alg, r1, h1, .inl h⟩⟩
      · exact .inr ⟨seq, r0, h0, .inr ⟨alg, r1, h1, .inr (.inl h)⟩⟩
    · split at h
      · cases h
      · rename_i hb
        have hb : b = 0 := by simpa using hb
        subst hb
        exact .inr ⟨seq, r0, h0, .inr ⟨alg, r1, h1, .inr (.inr ⟨key, r2, (derBitString_iff _ _ _ _).1 h2,
          (tryFromPkcs1_panic _).1 h⟩)⟩⟩
  · rintro (h | ⟨seq, r0, h0, h | ⟨alg, r1, h1, h | h | ⟨key, r2, h2, h⟩⟩⟩)
    · exact .inl h
    · exact .inr ⟨seq, ⟨r0, h0⟩, .inl (.inl h)⟩
    · exact .inr ⟨seq, ⟨r0, h0⟩, .inl (.inr ⟨alg, r1, h1, .inl h⟩)⟩
    · exact .inr ⟨seq, ⟨r0, h0⟩, .inl (.inr ⟨alg, r1, h1, .inr h⟩)⟩
    · refine .inr ⟨seq, ⟨r0, h0⟩, .inr ⟨(0, key), ⟨r2, alg, r1, h1, (derBitString_iff _ _ _ _).2 h2⟩, ?_⟩⟩
      rw [if_neg (by simp)]
      exact (tryFromPkcs1_panic _).2 h

/-- a text between markers that overlap is the first marker and the rest of the second. -/
theorem overlap_iff (pem b e : Bytes) (hb : b <+: pem) (he : e <:+ pem) :
    pemBody pem b e = .panic ↔
      ∃ k, 1 ≤ k ∧ k ≤ b.length ∧ k ≤ e.length ∧ b.drop (b.length - k) = e.take k ∧ pem = b ++ e.drop k := by
  unfold pemBody
  have hlb := hb.length_le
  have hle := he.length_le
  constructor
  · intro h
    split at h
    · rename_i hl
      obtain ⟨y, hy⟩ := hb
      obtain ⟨x, hx⟩ := he
      have l1 := congrArg List.length hy
      have l2 := congrArg List.length hx
      rw [List.length_append] at l1 l2
      obtain ⟨k, hk⟩ : ∃ k, k + pem.length = b.length + e.length := ⟨b.length + e.length - pem.length, by omega⟩
      refine ⟨k, by omega, by omega, by omega, ?_, ?_⟩
      · have a1 : (pem.drop x.length).take k = b.drop (b.length - k) := by
          have hxk : x.length = b.length - k := by omega
          rw [← hy, List.drop_append_of_le_length (by omega), List.take_append_of_le_length (by
            rw [List.length_drop]; omega), List.take_of_length_le (by rw [List.length_drop]; omega), hxk]
        rw [← a1, ← hx, List.drop_left]
      · have a2 : pem.drop b.length = e.drop k := by
          have hxk : b.length - x.length = k := by omega
          rw [← hx, List.drop_append, List.drop_of_length_le (by omega), List.nil_append, hxk]
        rw [← a2]
        conv_lhs => rw [← List.take_append_drop b.length pem]
        rw [← hy, List.take_left]
    · cases h
  · rintro ⟨k, h1, h2, h3, _, rfl⟩
    rw [if_pos]
    rw [List.length_append, List.length_drop]
    omega

/-- **C79** (key): a text sent as a key breaks the client exactly if the two markers share dashes, or if between them is
the base64 text of bytes that end within one of the groups of a key. -/
theorem C79_key_text (t : Bytes) :
    tryFromPem t = .panic ↔ Spec.SharedDashes t ∨ ∃ body,
      (Spec.SameText t (Spec.text "-----BEGIN RSA PUBLIC KEY-----" ++ Spec.b64Encode body ++
          Spec.text "-----END RSA PUBLIC KEY-----") ∧ Spec.CutPkcs1 body) ∨
      (Spec.SameText t (Spec.text "-----BEGIN PUBLIC KEY-----" ++ Spec.b64Encode body ++
          Spec.text "-----END PUBLIC KEY-----") ∧ Spec.CutSpki body) := by
  have b1 : (Spec.text "-----BEGIN RSA PUBLIC KEY-----").filter (!Spec.isSpace ·) = pkcs1Begin := by decide +kernel
  have e1 : (Spec.text "-----END RSA PUBLIC KEY-----").filter (!Spec.isSpace ·) = pkcs1End := by decide +kernel
  have b8 : (Spec.text "-----BEGIN PUBLIC KEY-----").filter (!Spec.isSpace ·) = pkcs8Begin := by decide +kernel
  have e8 : (Spec.text "-----END PUBLIC KEY-----").filter (!Spec.isSpace ·) = pkcs8End := by decide +kernel
  have d1 : ∀ k ≤ 5, ((Spec.text "-----END RSA PUBLIC KEY-----").drop k).filter (!Spec.isSpace ·) = pkcs1End.drop k := by
    decide +kernel
  have d8 : ∀ k ≤ 5, ((Spec.text "-----END PUBLIC KEY-----").drop k).filter (!Spec.isSpace ·) = pkcs8End.drop k := by
    decide +kernel
  have o1 : ∀ k < 28, 1 ≤ k → pkcs1Begin.drop (pkcs1Begin.length - k) = pkcs1End.take k → k ≤ 5 := by decide +kernel
  have o8 : ∀ k < 28, 1 ≤ k → pkcs8Begin.drop (pkcs8Begin.length - k) = pkcs8End.take k → k ≤ 5 := by decide +kernel
  have u1 : ∀ k ≤ 5, pkcs1Begin.drop (pkcs1Begin.length - k) = pkcs1End.take k := by decide +kernel
  have u8 : ∀ k ≤ 5, pkcs8Begin.drop (pkcs8Begin.length - k) = pkcs8End.take k := by decide +kernel
  have len1 : pkcs1Begin.length = 27 ∧ pkcs1End.length = 25 ∧ pkcs8Begin.length = 24 ∧ pkcs8End.length = 22 := by
    decide +kernel
  have same1 : ∀ body, Spec.SameText t (Spec.text "-----BEGIN RSA PUBLIC KEY-----" ++ Spec.b64Encode body ++
      Spec.text "-----END RSA PUBLIC KEY-----") ↔
      t.filter (!Spec.isSpace ·) = pkcs1Begin ++ Spec.b64Encode body ++ pkcs1End := by
    intro body
    unfold Spec.SameText
    rw [List.filter_append, List.filter_append, List.filter_eq_self.2 (b64Encode_no_space body), b1, e1]
  have same8 : ∀ body, Spec.SameText t (Spec.text "-----BEGIN PUBLIC KEY-----" ++ Spec.b64Encode body ++
      Spec.text "-----END PUBLIC KEY-----") ↔
      t.filter (!Spec.isSpace ·) = pkcs8Begin ++ Spec.b64Encode body ++ pkcs8End := by
    intro body
    unfold Spec.SameText
    rw [List.filter_append, List.filter_append, List.filter_eq_self.2 (b64Encode_no_space body), b8, e8]
  have shared : Spec.SharedDashes t ↔ ∃ k, 1 ≤ k ∧ k ≤ 5 ∧
      (t.filter (!Spec.isSpace ·) = pkcs1Begin ++ pkcs1End.drop k ∨
       t.filter (!Spec.isSpace ·) = pkcs8Begin ++ pkcs8End.drop k) := by
    unfold Spec.SharedDashes Spec.SameText
    constructor
    · rintro ⟨k, h1, h5, h⟩
      rw [List.filter_append, List.filter_append, b1, b8, d1 k h5, d8 k h5] at h
      exact ⟨k, h1, h5, h⟩
    · rintro ⟨k, h1, h5, h⟩
      refine ⟨k, h1, h5, ?_⟩
      rw [List.filter_append, List.filter_append, b1, b8, d1 k h5, d8 k h5]
      exact h
  have hne : ∀ x y : Bytes, pkcs1Begin ++ x ≠ pkcs8Begin ++ y := by
    intro x y h
    have := congrArg (List.take 11) h
    rw [List.take_append_of_le_length (by decide +kernel), List.take_append_of_le_length (by decide +kernel)] at this
    exact absurd this (by decide +kernel)
  have suf1 : ∀ k ≤ 5, pkcs1End <:+ pkcs1Begin ++ pkcs1End.drop k := by decide +kernel
  have suf8 : ∀ k ≤ 5, pkcs8End <:+ pkcs8Begin ++ pkcs8End.drop k := by decide +kernel
  simp only [same1, same8, shared]
  unfold tryFromPem
  simp only [pemSpace_eq]
  generalize t.filter (!Spec.isSpace ·) = pem
  rw [out_bind_panic]
  have mapPanic : ∀ (x : Out CryptError Bytes) (f : Bytes → Bytes × Bool), x.map' f = .panic ↔ x = .panic := by
    intro x f; cases x <;> simp
  have mapOk : ∀ (x : Out CryptError Bytes) (q : Bytes × Bool) (f : Bool), x.map' (·, f) = .ok q ↔ x = .ok q.1 ∧ q.2 = f := by
    intro x q f
    obtain ⟨q1, q2⟩ := q
    cases x <;> simp [eq_comm]
  by_cases h1 : pkcs1Begin.isPrefixOf pem ∧ pkcs1End.isSuffixOf pem
  · rw [if_pos h1]
    rw [List.isPrefixOf_iff_prefix, List.isSuffixOf_iff_suffix] at h1
    rw [mapPanic, overlap_iff _ _ _ h1.1 h1.2]
    simp only [mapOk]
    constructor
    · rintro (⟨k, k1, k2, k3, k4, k5⟩ | ⟨⟨q, f⟩, ⟨hq, hf⟩, h⟩)
      · exact .inl ⟨k, k1, o1 k (by omega) k1 k4, .inl k5⟩
      · dsimp only at hq hf h
        subst hf
        cases hd : b64Decode q with
        | none => rw [hd] at h; simp at h
        | some body =>
          rw [hd] at h
          simp only [if_true] at h
          refine .inr ⟨body, .inl ⟨?_, (tryFromPkcs1_panic _).1 h⟩⟩
          rw [← b64Decode_sound _ _ _ le_rfl hd]
          exact (pemBody_iff _ _ _ _ h1.1 h1.2).1 hq
    · rintro (⟨k, k1, k5, h | h⟩ | ⟨body, ⟨hp, hk⟩ | ⟨hp, hk⟩⟩)
      · exact .inl ⟨k, k1, by omega, by omega, u1 k k5, h⟩
      · exfalso
        obtain ⟨x, hx⟩ := h1.1
        rw [h] at hx
        exact hne _ _ hx
      · refine .inr ⟨(Spec.b64Encode body, true), ⟨(pemBody_iff _ _ _ _ h1.1 h1.2).2 hp, rfl⟩, ?_⟩
        simp only [b64Decode_b64Encode, if_true]
        exact (tryFromPkcs1_panic _).2 hk
      · exfalso
        obtain ⟨x, hx⟩ := h1.1
        rw [hp, List.append_assoc] at hx
        exact hne _ _ hx
  · rw [if_neg h1]
    rw [List.isPrefixOf_iff_prefix, List.isSuffixOf_iff_suffix] at h1
    have n1 : ∀ body, pem ≠ pkcs1Begin ++ Spec.b64Encode body ++ pkcs1End := by
      intro body hp
      refine h1 ⟨?_, ?_⟩
      · rw [hp, List.append_assoc]; exact List.prefix_append _ _
      · rw [hp]; exact List.suffix_append _ _
    have n2 : ∀ k ≤ 5, pem ≠ pkcs1Begin ++ pkcs1End.drop k := by
      intro k hk hp
      refine h1 ⟨?_, ?_⟩
      · rw [hp]; exact List.prefix_append _ _
      · rw [hp]; exact suf1 k hk
    by_cases h8 : pkcs8Begin.isPrefixOf pem ∧ pkcs8End.isSuffixOf pem
    · rw [if_pos h8]
      rw [List.isPrefixOf_iff_prefix, List.isSuffixOf_iff_suffix] at h8
      rw [mapPanic, overlap_iff _ _ _ h8.1 h8.2]
      simp only [mapOk]
      constructor
      · rintro (⟨k, k1, k2, k3, k4, k5⟩ | ⟨⟨q, f⟩, ⟨hq, hf⟩, h⟩)
        · exact .inl ⟨k, k1, o8 k (by omega) k1 k4, .inr k5⟩
        · dsimp only at hq hf h
          subst hf
          cases hd : b64Decode q with
          | none => rw [hd] at h; simp at h
          | some body =>
            rw [hd] at h
            simp only [Bool.false_eq_true, if_false] at h
            refine .inr ⟨body, .inr ⟨?_, (tryFromPkcs8_panic _).1 h⟩⟩
            rw [← b64Decode_sound _ _ _ le_rfl hd]
            exact (pemBody_iff _ _ _ _ h8.1 h8.2).1 hq
      · rintro (⟨k, k1, k5, h | h⟩ | ⟨body, ⟨hp, hk⟩ | ⟨hp, hk⟩⟩)
        · exact absurd h (n2 k k5)
        · exact .inl ⟨k, k1, by omega, by omega, u8 k k5, h⟩
        · exact absurd hp (n1 body)
        · refine .inr ⟨(Spec.b64Encode body, false), ⟨(pemBody_iff _ _ _ _ h8.1 h8.2).2 hp, rfl⟩, ?_⟩
          simp only [b64Decode_b64Encode, Bool.false_eq_true, if_false]
          exact (tryFromPkcs8_panic _).2 hk
    · rw [if_neg h8]
      rw [List.isPrefixOf_iff_prefix, List.isSuffixOf_iff_suffix] at h8
      constructor
      · rintro (h | ⟨_, h, _⟩) <;> cases h
      · rintro (⟨k, k1, k5, h | h⟩ | ⟨body, ⟨hp, hk⟩ | ⟨hp, hk⟩⟩)
        · exact absurd h (n2 k k5)
        · exfalso
          refine h8 ⟨?_, ?_⟩
          · rw [h]; exact List.prefix_append _ _
          · rw [h]; exact suf8 k k5
        · exact absurd hp (n1 body)
        · exfalso
          refine h8 ⟨?_, ?_⟩
          · rw [hp, List.append_assoc]; exact List.prefix_append _ _
          · rw [hp]; exact List.suffix_append _ _

/-! ### Encryption -/

theorem natBits_eq (n : Nat) : natBits n = Spec.bitLength n := rfl

theorem oaepPad_encode (h : Hashes) (h1 : ∀ x, (h.sha1 x).length = 20) (seed data : Bytes) (hs : seed.length = 20)
    (n : Nat) (em : Bytes) :
    oaepPad h seed data n = .ok em ↔
      data.length + 44 ≤ n ∧ n ≤ 20 * 2 ^ 32 + 21 ∧ em = Spec.oaepEncode h.sha1 seed data n := by
  by_cases hf : data.length + 44 ≤ n
  · by_cases hn : n ≤ 20 * 2 ^ 32 + 21
    · obtain ⟨db, hdb, hdl, he⟩ := oaepPad_eq (seed := seed) h h1 hf hn
      have x1 : xorBytes db (Spec.mgf1 h.sha1 seed (n - 21)) = Spec.xor db (Spec.mgf1 h.sha1 seed (n - 21)) :=
        xorBytes_eq_xor (by rw [hdl, Spec.length_mgf1 h1])
      have x2 : ∀ y, xorBytes seed (Spec.mgf1 h.sha1 y 20) = Spec.xor seed (Spec.mgf1 h.sha1 y 20) := fun y =>
        xorBytes_eq_xor (by rw [hs, Spec.length_mgf1 h1])
      have : oaepPad h seed data n = .ok (Spec.oaepEncode h.sha1 seed data n) := by
        rw [he, x1, x2, hdb]
        rfl
      rw [this]
      constructor
      · intro h
        cases h
        exact ⟨hf, hn, rfl⟩
      · rintro ⟨_, _, rfl⟩
        rfl
    · have : oaepPad h seed data n = .err .messageTooLong := by
        unfold oaepPad HASH_LEN
        rw [if_neg (by omega)]
        simp only []
        rw [mgf1_too_long, Out.err_bind]
        simp only [List.length_append, List.length_replicate, h1, List.length_cons, List.length_nil]
        omega
      rw [this]
      constructor
      · intro h; cases h
      · rintro ⟨_, h, _⟩; exact absurd h hn
  · rw [C33_too_long h seed data n (by omega)]
    constructor
    · intro h; cases h
    · rintro ⟨h, _⟩; exact absurd h hf

theorem toBytesBe_long (n k : Nat) (hk : 1 ≤ k) : k < (toBytesBe n).length ↔ 256 ^ k ≤ n := by
  constructor
  · intro h
    by_contra hn
    have := (toBytesBe_spec n).2 k hk (by omega)
    omega
  · intro h
    by_contra hl
    have h1 := os2ip_lt (toBytesBe n)
    rw [(toBytesBe_spec n).1] at h1
    have := Nat.pow_le_pow_right (show 0 < 256 by omega) (show (toBytesBe n).length ≤ k by omega)
    omega

/-- **C79** (encryption): exactly what is encrypted, and to what, … -/
theorem C79_encrypts (h : Hashes) (h1 : ∀ x, (h.sha1 x).length = 20) (seed data : Bytes) (hs : seed.length = 20)
    (k : PublicKey) (c : Bytes) :
    k.encryptPadded h seed data = .ok c ↔
      data.length + 44 ≤ Spec.blockSize k.modulus ∧ Spec.blockSize k.modulus ≤ 20 * 2 ^ 32 + 21 ∧
      Spec.os2ip (Spec.oaepEncode h.sha1 seed data (Spec.blockSize k.modulus)) ^ k.exponent % k.modulus <
        256 ^ Spec.blockSize k.modulus ∧
      c = Spec.i2osp (Spec.blockSize k.modulus)
        (Spec.os2ip (Spec.oaepEncode h.sha1 seed data (Spec.blockSize k.modulus)) ^ k.exponent % k.modulus) := by
  unfold PublicKey.encryptPadded
  simp only []
  rw [Out.bind_eq_ok, show k.numOctets = Spec.blockSize k.modulus from rfl]
  simp only [oaepPad_encode h h1 seed data hs, beNat_eq_os2ip]
  generalize hb : Spec.blockSize k.modulus = b
  have hm : data.length + 44 ≤ b → k.modulus ≠ 0 := by
    rintro hf h0
    rw [h0] at hb
    simp [Spec.blockSize, Spec.bitLength] at hb
    omega
  constructor
  · rintro ⟨em, ⟨hf, hn, rfl⟩, hx⟩
    rw [if_neg (hm hf)] at hx
    generalize Spec.os2ip (Spec.oaepEncode h.sha1 seed data b) ^ k.exponent % k.modulus = v at *
    split at hx
    · cases hx
    · rename_i hl
      have hlt : v < 256 ^ b := by
        by_contra hy
        exact hl ((toBytesBe_long v b (by omega)).2 (by omega))
      refine ⟨hf, hn, hlt, ?_⟩
      simp only [Out.ok.injEq] at hx
      rw [← hx]
      have e := i2osp_os2ip (List.replicate (b - (toBytesBe v).length) 0 ++ toBytesBe v) 0
      rw [Nat.zero_mul, Nat.zero_add, os2ip_append, os2ip_zeros, Nat.zero_mul, Nat.zero_add, (toBytesBe_spec v).1,
        List.length_append, List.length_replicate, show b - (toBytesBe v).length + (toBytesBe v).length = b by omega] at e
      exact e.symm
  · rintro ⟨hf, hn, hlt, rfl⟩
    refine ⟨_, ⟨hf, hn, rfl⟩, ?_⟩
    rw [if_neg (hm hf)]
    generalize Spec.os2ip (Spec.oaepEncode h.sha1 seed data b) ^ k.exponent % k.modulus = v at *
    have hl : ¬ b < (toBytesBe v).length := fun hx => by
      have := (toBytesBe_long v b (by omega)).1 hx
      omega
    rw [if_neg hl]
    have e := i2osp_os2ip (List.replicate (b - (toBytesBe v).length) 0 ++ toBytesBe v) 0
    rw [Nat.zero_mul, Nat.zero_add, os2ip_append, os2ip_zeros, Nat.zero_mul, Nat.zero_add, (toBytesBe_spec v).1,
      List.length_append, List.length_replicate, show b - (toBytesBe v).length + (toBytesBe v).length = b by omega] at e
    rw [e]

/-- … and at what the client panics: at a result that does not fit into the block. The modulus then has one bit more than
whole octets. -/
theorem C79_encrypt_panics (h : Hashes) (h1 : ∀ x, (h.sha1 x).length = 20) (seed data : Bytes) (hs : seed.length = 20)
    (k : PublicKey) :
    (k.encryptPadded h seed data = .panic ↔
      data.length + 44 ≤ Spec.blockSize k.modulus ∧ Spec.blockSize k.modulus ≤ 20 * 2 ^ 32 + 21 ∧
      256 ^ Spec.blockSize k.modulus ≤
        Spec.os2ip (Spec.oaepEncode h.sha1 seed data (Spec.blockSize k.modulus)) ^ k.exponent % k.modulus) ∧
    (k.encryptPadded h seed data = .panic → Spec.bitLength k.modulus % 8 = 1) := by
  refine ⟨?_, fun hp => ?_⟩
  · unfold PublicKey.encryptPadded
    simp only []
    rw [out_bind_panic, show k.numOctets = Spec.blockSize k.modulus from rfl]
    simp only [oaepPad_encode h h1 seed data hs, beNat_eq_os2ip]
    generalize hb : Spec.blockSize k.modulus = b
    have hm : data.length + 44 ≤ b → k.modulus ≠ 0 := by
      rintro hf h0
      rw [h0] at hb
      simp [Spec.blockSize, Spec.bitLength] at hb
      omega
    constructor
    · rintro (h | ⟨em, ⟨hf, hn, rfl⟩, h⟩)
      · exact absurd h (oaepPad_ne_panic _ _ _ _)
      · rw [if_neg (hm hf)] at h
        split at h
        · rename_i hl
          exact ⟨hf, hn, (toBytesBe_long _ b (by omega)).1 hl⟩
        · cases h
    · rintro ⟨hf, hn, hl⟩
      refine .inr ⟨_, ⟨hf, hn, rfl⟩, ?_⟩
      rw [if_neg (hm hf), if_pos ((toBytesBe_long _ b (by omega)).2 hl)]
  · by_contra hx
    exact C34_no_panic_partial h seed k data hx hp

/-! ### Versions -/

theorem splitAtByte_iff (s : Str) (n : Nat) (p q : Str) :
    splitAtByte s n = some (p, q) ↔ s = p ++ q ∧ (utf8 p).length = n := by
  induction s generalizing n p q with
  | nil =>
    cases n with
    | zero =>
      simp only [splitAtByte, Option.some.injEq, Prod.mk.injEq]
      constructor
      · rintro ⟨rfl, rfl⟩; exact ⟨rfl, rfl⟩
      · rintro ⟨h, _⟩
        rw [eq_comm, List.append_eq_nil_iff] at h
        exact ⟨h.1.symm, h.2.symm⟩
    | succ n =>
      simp only [splitAtByte]
      constructor
      · intro h; cases h
      · rintro ⟨h, hl⟩
        rw [eq_comm, List.append_eq_nil_iff] at h
        rw [h.1] at hl
        cases hl
  | cons c cs ih =>
    have hc := utf8Char_length c
    have hcons : ∀ r : Str, (utf8 (c :: r)).length = (utf8Char c).length + (utf8 r).length := by
      intro r
      rw [show utf8 (c :: r) = utf8Char c ++ utf8 r from rfl, List.length_append]
    cases n with
    | zero =>
      simp only [splitAtByte, Option.some.injEq, Prod.mk.injEq]
      constructor
      · rintro ⟨rfl, rfl⟩; exact ⟨rfl, rfl⟩
      · rintro ⟨h, hl⟩
        cases p with
        | nil => exact ⟨rfl, h⟩
        | cons x p =>
          simp only [List.cons_append, List.cons.injEq] at h
          rw [← h.1, hcons] at hl
          omega
    | succ n =>
      simp only [splitAtByte]
      by_cases hk : n + 1 < (utf8Char c).length
      · rw [if_pos hk]
        constructor
        · intro h; cases h
        · rintro ⟨h, hl⟩
          cases p with
          | nil => cases hl
          | cons x p =>
            simp only [List.cons_append, List.cons.injEq] at h
            rw [← h.1, hcons] at hl
            omega
      · rw [if_neg hk, Option.map_eq_some_iff]
        constructor
        · rintro ⟨⟨p', q'⟩, h, he⟩
          simp only [Prod.mk.injEq] at he
          obtain ⟨rfl, rfl⟩ := he
          obtain ⟨rfl, hl⟩ := (ih _ _ _).1 h
          exact ⟨rfl, by rw [hcons]; omega⟩
        · rintro ⟨h, hl⟩
          cases p with
          | nil => cases hl
          | cons x p =>
            simp only [List.cons_append, List.cons.injEq] at h
            obtain ⟨rfl, h⟩ := h
            rw [hcons] at hl
            exact ⟨(p, q), (ih _ _ _).2 ⟨h, by omega⟩, rfl⟩

theorem boundary_iff (s : Str) (n : Nat) : Spec.Boundary s n ↔ splitAtByte s n ≠ none := by
  constructor
  · rintro ⟨p, q, h⟩ hn
    rw [(splitAtByte_iff s n p q).2 h] at hn
    cases hn
  · intro h
    cases hs : splitAtByte s n with
    | none => exact absurd hs h
    | some pq => exact ⟨pq.1, pq.2, (splitAtByte_iff s n pq.1 pq.2).1 hs⟩

/-- characters of which every digit is one and the plus sign is none. -/
structure Spec.AlnumLike (alnum : Char → Bool) : Prop where
  digit : ∀ c, 48 ≤ c.toNat → c.toNat ≤ 57 → alnum c = true
  plus : alnum '+' = false

theorem u16FromStr_iff (w : Str) (n : UInt16) (hp : '+' ∉ w) : u16FromStr w = some n ↔ Spec.NumberText w n.toNat := by
  have e : stripPlus w = w := by
    unfold stripPlus
    split
    · exact absurd (List.mem_cons_self) hp
    · rfl
  unfold u16FromStr Spec.NumberText
  have hf : w.foldl (fun n c => n * 10 + (c.toNat - 48)) 0 = w.foldl (fun acc c => 10 * acc + (c.toNat - 48)) 0 := by
    congr 1
    funext a c
    rw [Nat.mul_comm]
  simp only [e, hf]
  have hall : (w.all (fun c => decide (48 ≤ c.toNat) && decide (c.toNat ≤ 57))) = true ↔
      ∀ c ∈ w, 48 ≤ c.toNat ∧ c.toNat ≤ 57 := by
    simp
  generalize hv : w.foldl (fun acc c => 10 * acc + (c.toNat - 48)) 0 = v
  constructor
  · intro h
    split at h
    · cases h
    · rename_i hx
      rw [not_or, not_not, hall] at hx
      split at h
      · rename_i hlt
        simp only [Option.some.injEq] at h
        refine ⟨hx.1, hx.2, ?_⟩
        rw [← h, UInt16.toNat_ofNat', Nat.mod_eq_of_lt hlt]
      · cases h
  · rintro ⟨h1, h2, h3⟩
    rw [if_neg (by rw [not_or, not_not, hall]; exact ⟨h1, h2⟩)]
    have := n.toNat_lt
    rw [if_pos (by omega), ← h3]
    simp

theorem length_utf8Char_one (c : Char) : (utf8Char c).length = 1 ↔ c.toNat < 128 := by
  unfold utf8Char
  simp only
  split
  · simp_all
  · split
    · simp_all
    · split <;> simp_all

theorem length_utf8_ascii (w : Str) : w.length ≤ (utf8 w).length ∧
    ((utf8 w).length = w.length ↔ ∀ c ∈ w, c.toNat < 128) := by
  induction w with
  | nil => simp [utf8]
  | cons c w ih =>
    have hc := utf8Char_length c
    have h1 := length_utf8Char_one c
    rw [show utf8 (c :: w) = utf8Char c ++ utf8 w from rfl, List.length_append, List.length_cons]
    refine ⟨by omega, ?_⟩
    rw [List.forall_mem_cons, ← ih.2, ← h1]
    constructor
    · intro h; exact ⟨by omega, by omega⟩
    · rintro ⟨a, b⟩; omega

/-- where a word ends. -/
theorem word_split (alnum : Char → Bool) (s : Str) :
    (∀ c ∈ s, alnum c = true) ∨ ∃ w x r, s = w ++ x :: r ∧ (∀ c ∈ w, alnum c = true) ∧ alnum x = false := by
  induction s with
  | nil => simp
  | cons c s ih =>
    cases hc : alnum c with
    | false => exact .inr ⟨[], c, s, rfl, by simp, hc⟩
    | true =>
      rcases ih with h | ⟨w, x, r, rfl, hw, hx⟩
      · exact .inl (List.forall_mem_cons.2 ⟨hc, h⟩)
      · exact .inr ⟨c :: w, x, r, rfl, List.forall_mem_cons.2 ⟨hc, hw⟩, hx⟩

theorem word_findIdx (alnum : Char → Bool) (w : Str) (x : Char) (r : Str) (hw : ∀ c ∈ w, alnum c = true)
    (hx : alnum x = false) : (w ++ x :: r).findIdx (fun c => !alnum c) = w.length := by
  induction w with
  | nil => simp [List.findIdx_cons, hx]
  | cons c w ih =>
    rw [List.forall_mem_cons] at hw
    rw [List.cons_append, List.findIdx_cons, hw.1, ih hw.2]
    rfl

theorem word_unique {alnum : Char → Bool} {w w' : Str} {x x' : Char} {r r' : Str} (h : w ++ x :: r = w' ++ x' :: r')
    (hw : ∀ c ∈ w, alnum c = true) (hx : alnum x = false) (hw' : ∀ c ∈ w', alnum c = true) (hx' : alnum x' = false) :
    w = w' ∧ x = x' ∧ r = r' := by
  have hl : w.length = w'.length := by
    rw [← word_findIdx alnum w x r hw hx, ← word_findIdx alnum w' x' r' hw' hx', h]
  obtain ⟨h1, h2⟩ := List.append_inj h hl
  simp only [List.cons.injEq] at h2
  exact ⟨h1, h2.1, h2.2⟩

theorem eatInt_all (alnum : Char → Bool) (s : Str) (h : ∀ c ∈ s, alnum c = true) :
    eatInt alnum s = .ok (u16FromStr s, []) := by
  unfold eatInt
  simp only []
  rw [if_neg]
  rw [List.findIdx_lt_length]
  rintro ⟨x, hx, h0⟩
  rw [h x hx] at h0
  cases h0

theorem eatInt_panic (alnum : Char → Bool) (s : Str) : eatInt alnum s = .panic ↔ Spec.Slips alnum s := by
  rcases word_split alnum s with h | ⟨w, x, r, rfl, hw, hx⟩
  · rw [eatInt_all alnum s h]
    constructor
    · intro h; cases h
    · rintro ⟨w, x, r, rfl, _, hx, _⟩
      rw [h x (by simp)] at hx
      cases hx
  · have hi := word_findIdx alnum w x r hw hx
    unfold eatInt
    simp only [hi]
    rw [if_pos (by simp)]
    have hs : Spec.Slips alnum (w ++ x :: r) ↔
        (¬ Spec.Boundary (w ++ x :: r) w.length ∨ ¬ Spec.Boundary (w ++ x :: r) (w.length + 1)) := by
      constructor
      · rintro ⟨w', x', r', he, hw', hx', hb⟩
        obtain ⟨rfl, _, _⟩ := word_unique he hw hx hw' hx'
        exact hb
      · intro h
        exact ⟨w, x, r, rfl, hw, hx, h⟩
    rw [hs, boundary_iff, boundary_iff, not_not, not_not]
    cases splitAtByte (w ++ x :: r) w.length with
    | none => simp
    | some p =>
      cases splitAtByte (w ++ x :: r) (w.length + 1) with
      | none => simp
      | some q => simp

theorem eatInt_some (alnum : Char → Bool) (ha : Spec.AlnumLike alnum) (s rest : Str) (n : UInt16) :
    eatInt alnum s = .ok (some n, rest) ↔
      Spec.NumberThen alnum s n rest ∨ (Spec.NumberText s n.toNat ∧ rest = []) := by
  have digits : ∀ {w : Str} {m : Nat}, Spec.NumberText w m → ∀ c ∈ w, alnum c = true := fun h c hc =>
    ha.digit c (h.2.1 c hc).1 (h.2.1 c hc).2
  rcases word_split alnum s with h | ⟨w, x, r, rfl, hw, hx⟩
  · have hp : '+' ∉ s := fun hm => by
      have := h _ hm
      rw [ha.plus] at this
      cases this
    rw [eatInt_all alnum s h]
    simp only [Out.ok.injEq, Prod.mk.injEq]
    rw [u16FromStr_iff s n hp]
    constructor
    · rintro ⟨h1, rfl⟩
      exact .inr ⟨h1, rfl⟩
    · rintro (⟨w, x, _, hx, _, rfl⟩ | ⟨h1, rfl⟩)
      · rw [h x (by simp)] at hx
        cases hx
      · exact ⟨h1, rfl⟩
  · have hi := word_findIdx alnum w x r hw hx
    have hp : ∀ p : Str, (∀ c ∈ p, c ∈ w) → '+' ∉ p := fun p hpw hm => by
      have := hw _ (hpw _ hm)
      rw [ha.plus] at this
      cases this
    unfold eatInt
    simp only [hi]
    rw [if_pos (by simp)]
    constructor
    · intro h
      cases h1 : splitAtByte (w ++ x :: r) w.length with
      | none => rw [h1] at h; cases h
      | some p =>
        cases h2 : splitAtByte (w ++ x :: r) (w.length + 1) with
        | none => rw [h1, h2] at h; cases h
        | some q =>
          obtain ⟨p1, p2⟩ := p
          obtain ⟨q1, q2⟩ := q
          rw [h1, h2] at h
          simp only [Out.ok.injEq, Prod.mk.injEq] at h
          obtain ⟨e1, l1⟩ := (splitAtByte_iff _ _ _ _).1 h1
          obtain ⟨e2, l2⟩ := (splitAtByte_iff _ _ _ _).1 h2
          -- the first part is no longer than the word
          have hlen : p1.length ≤ w.length := by
            have := (length_utf8_ascii p1).1
            omega
          have hpre : p1 <+: w := List.prefix_of_prefix_length_le ⟨p2, e1.symm⟩ ⟨x :: r, rfl⟩ hlen
          have hnum := (u16FromStr_iff p1 n (hp p1 fun c hc => hpre.subset hc)).1 h.1
          have hasc : (utf8 p1).length = p1.length := (length_utf8_ascii p1).2.2 fun c hc => by
            have := hnum.2.1 c hc
            omega
          have hpw : p1 = w := hpre.eq_of_length (by omega)
          subst hpw
          have hq : q1 = p1 ++ [x] := by
            have hql : p1.length < q1.length := by
              by_contra hc
              have hqp : q1 <+: p1 := List.prefix_of_prefix_length_le ⟨q2, e2.symm⟩ ⟨x :: r, rfl⟩ (by omega)
              obtain ⟨z, hz⟩ := hqp
              have := congrArg (fun t => (utf8 t).length) hz
              simp only [utf8_append, List.length_append] at this
              omega
            have hq2 : q1.length ≤ p1.length + 1 := by
              have := (length_utf8_ascii q1).1
              omega
            have : q1 <+: p1 ++ [x] := List.prefix_of_prefix_length_le ⟨q2, e2.symm⟩ ⟨r, by simp⟩ (by simp; omega)
            exact this.eq_of_length (by simp; omega)
          subst hq
          have hxa : x.toNat < 128 := by
            refine (length_utf8_ascii (p1 ++ [x])).2.1 ?_ x (by simp)
            simp only [List.length_append, List.length_cons, List.length_nil]
            omega
          have hr : r = q2 := by
            rw [List.append_assoc] at e2
            have := List.append_cancel_left e2
            simpa using this
          rw [← h.2, ← hr]
          exact .inl ⟨p1, x, hnum, hx, hxa, rfl⟩
    · rintro (⟨w', x', hn, hx', h7, he⟩ | ⟨hn, _⟩)
      · obtain ⟨rfl, rfl, rfl⟩ := word_unique he hw hx (digits hn) hx'
        have e1 := splitAtByte_ascii w (x :: r) (fun c hc => by have := hn.2.1 c hc; omega)
        have e2 := splitAtByte_ascii (w ++ [x]) r (by
          intro c hc
          rcases List.mem_append.1 hc with hc | hc
          · have := hn.2.1 c hc; omega
          · rw [List.mem_singleton] at hc; subst hc; exact h7)
        rw [List.append_assoc, List.length_append] at e2
        simp only [List.cons_append, List.nil_append, List.length_cons, List.length_nil] at e2
        rw [e1, e2]
        simp only [Out.ok.injEq, Prod.mk.injEq, and_true]
        exact (u16FromStr_iff w n (hp w fun _ h => h)).2 hn
      · rw [digits hn x (by simp)] at hx
        cases hx

theorem eatInt_nil (alnum : Char → Bool) : eatInt alnum [] = .ok (none, []) := rfl

theorem slips_nil (alnum : Char → Bool) : ¬ Spec.Slips alnum [] := by
  rintro ⟨w, x, r, h, _⟩
  simp at h

/-- **C79** (version): exactly the texts read as a version, … -/
theorem C79_version (alnum : Char → Bool) (ha : Spec.AlnumLike alnum) (s : Str) (a b c : UInt16) (maria : Bool) :
    parseServerVersion alnum s = .ok (some ((a, b, c), maria)) ↔
      ∃ rest, Spec.VersionForm alnum s a b c rest ∧ (maria = true ↔ "MariaDB".toList <+: rest) := by
  unfold parseServerVersion Spec.VersionForm
  have hpre : ∀ rest : Str, (maria = true ↔ "MariaDB".toList <+: rest) ↔ "MariaDB".toList.isPrefixOf rest = maria := by
    intro rest
    rw [← List.isPrefixOf_iff_prefix]
    cases maria <;> cases "MariaDB".toList.isPrefixOf rest <;> simp
  simp only [hpre]
  constructor
  · intro h
    obtain ⟨⟨o1, s1⟩, h1, h⟩ := Out.bind_eq_ok.1 h
    cases o1 with
    | none => cases h
    | some a' =>
    obtain ⟨⟨o2, s2⟩, h2, h⟩ := Out.bind_eq_ok.1 h
    cases o2 with
    | none => cases h
    | some b' =>
    obtain ⟨⟨o3, s3⟩, h3, h⟩ := Out.bind_eq_ok.1 h
    cases o3 with
    | none => cases h
    | some c' =>
    simp only [Out.ok.injEq, Option.some.injEq, Prod.mk.injEq] at h
    obtain ⟨⟨rfl, rfl, rfl⟩, hm⟩ := h
    rw [eatInt_some alnum ha] at h1 h2 h3
    rcases h1 with h1 | ⟨_, rfl⟩
    · rcases h2 with h2 | ⟨_, rfl⟩
      · exact ⟨s3, ⟨s1, s2, h1, h2, h3⟩, hm⟩
      · rcases h3 with ⟨w, x, _, _, _, h3⟩ | ⟨h3, _⟩
        · simp at h3
        · exact absurd rfl h3.1
    · rcases h2 with ⟨w, x, _, _, _, h2⟩ | ⟨h2, _⟩
      · simp at h2
      · exact absurd rfl h2.1
  · rintro ⟨rest, ⟨s1, s2, h1, h2, h3⟩, hm⟩
    rw [(eatInt_some alnum ha s s1 a).2 (.inl h1), Out.ok_bind]
    dsimp only
    rw [(eatInt_some alnum ha s1 s2 b).2 (.inl h2), Out.ok_bind]
    dsimp only
    rw [(eatInt_some alnum ha s2 rest c).2 h3, Out.ok_bind]
    dsimp only
    rw [hm]

/-- … and those that break the client. -/
theorem C79_version_panics (alnum : Char → Bool) (ha : Spec.AlnumLike alnum) (s : Str) :
    parseServerVersion alnum s = .panic ↔ Spec.VersionBreaks alnum s := by
  unfold parseServerVersion Spec.VersionBreaks
  constructor
  · intro h
    rcases (out_bind_panic _ _).1 h with h | ⟨⟨o1, s1⟩, h1, h⟩
    · exact .inl ((eatInt_panic _ _).1 h)
    · cases o1 with
      | none => cases h
      | some a =>
      rcases (out_bind_panic _ _).1 h with h | ⟨⟨o2, s2⟩, h2, h⟩
      · have hs := (eatInt_panic _ _).1 h
        rcases (eatInt_some alnum ha _ _ _).1 h1 with h1 | ⟨_, h1⟩
        · exact .inr ⟨a, s1, h1, .inl hs⟩
        · dsimp only at hs
          rw [h1] at hs
          exact absurd hs (slips_nil alnum)
      · cases o2 with
        | none => cases h
        | some b =>
        rcases (out_bind_panic _ _).1 h with h | ⟨⟨o3, s3⟩, h3, h⟩
        · have hs := (eatInt_panic _ _).1 h
          dsimp only at hs h2
          rcases (eatInt_some alnum ha _ _ _).1 h1 with h1 | ⟨_, h1⟩
          · rcases (eatInt_some alnum ha _ _ _).1 h2 with h2 | ⟨_, h2⟩
            · exact .inr ⟨a, s1, h1, .inr ⟨b, s2, h2, hs⟩⟩
            · rw [h2] at hs
              exact absurd hs (slips_nil alnum)
          · rw [h1, eatInt_nil] at h2
            cases h2
        · cases o3 <;> cases h
  · rintro (h | ⟨a, s1, h1, h | ⟨b, s2, h2, h⟩⟩)
    · rw [(eatInt_panic _ _).2 h]
      rfl
    · rw [(eatInt_some alnum ha s s1 a).2 (.inl h1), Out.ok_bind]
      dsimp only
      rw [(eatInt_panic _ _).2 h]
      rfl
    · rw [(eatInt_some alnum ha s s1 a).2 (.inl h1), Out.ok_bind]
      dsimp only
      rw [(eatInt_some alnum ha s1 s2 b).2 (.inl h2), Out.ok_bind]
      dsimp only
      rw [(eatInt_panic _ _).2 h]
      rfl

/-! ### Logins -/

open Spec (Turn Talk)

/-- **C79** (greeting): the greetings a client cannot do anything with. -/
theorem C79_greeting (alnum : Char → Bool) (ha : Spec.AlnumLike alnum) (o : Options) (g : Bytes) :
    (∀ d, ¬ Spec.Greets alnum o g d) ↔
      (∀ hs p1 p2 rest, ¬ Spec.GreetingForm hs g p1 p2 rest) ∨
      ∃ hs p1 p2 rest, Spec.GreetingForm hs g p1 p2 rest ∧ Spec.VersionBreaks alnum hs.serverVersion := by
  constructor
  · intro h
    by_cases hx : ∃ hs p1 p2 rest, Spec.GreetingForm hs g p1 p2 rest
    · obtain ⟨hs, p1, p2, rest, hf⟩ := hx
      refine .inr ⟨hs, p1, p2, rest, hf, ?_⟩
      rw [← C79_version_panics alnum ha]
      cases hv : parseServerVersion alnum hs.serverVersion with
      | ok v => exact absurd ⟨hs, v, ⟨p1, p2, rest, hf⟩, hv, rfl⟩ (h _)
      | err e => cases e
      | panic => rfl
    · refine .inl fun hs p1 p2 rest hf => hx ⟨hs, p1, p2, rest, hf⟩
  · rintro (h | ⟨hs, p1, p2, rest, hf, hb⟩) d ⟨hs', v, ⟨q1, q2, rest', hf'⟩, hv, _⟩
    · exact h _ _ _ _ hf'
    · have e1 := (C73_greeting g hs).2 ⟨p1, p2, rest, hf⟩
      have e2 := (C73_greeting g hs').2 ⟨q1, q2, rest', hf'⟩
      rw [e1] at e2
      cases e2
      rw [(C79_version_panics alnum ha _).2 hb] at hv
      cases hv

namespace Spec

/-- the client cannot encrypt the password for this key: there is no challenge to mix it with, or the result does not fit
into the block. -/
def Overflows (hash : Bytes → Bytes) (seed : Bytes) (o : Options) (d : ConnData) (k : PublicKey) : Prop :=
  d.nonce = [] ∨ ((secret o).length + 44 ≤ blockSize k.modulus ∧ blockSize k.modulus ≤ 20 * 2 ^ 32 + 21 ∧
    256 ^ blockSize k.modulus ≤
      os2ip (oaepEncode hash seed (xorRepeated (secret o) d.nonce) (blockSize k.modulus)) ^ k.exponent % k.modulus)

/-- a text that breaks the client where it expects a key. -/
def NoKey (t : Bytes) : Prop :=
  SharedDashes t ∨ ∃ body,
    (SameText t (text "-----BEGIN RSA PUBLIC KEY-----" ++ b64Encode body ++ text "-----END RSA PUBLIC KEY-----") ∧
      CutPkcs1 body) ∨
    (SameText t (text "-----BEGIN PUBLIC KEY-----" ++ b64Encode body ++ text "-----END PUBLIC KEY-----") ∧ CutSpki body)

/-- a text that is a key. -/
def IsKey (t : Bytes) (k : PublicKey) : Prop :=
  ∃ body,
    (SameText t (text "-----BEGIN RSA PUBLIC KEY-----" ++ b64Encode body ++ text "-----END RSA PUBLIC KEY-----") ∧
      IsPkcs1 body k.modulus k.exponent) ∨
    (SameText t (text "-----BEGIN PUBLIC KEY-----" ++ b64Encode body ++ text "-----END PUBLIC KEY-----") ∧
      IsSpki body k.modulus k.exponent)

/-- the conversations after the request for the password that break the client. -/
def Fatal (hash : Bytes → Bytes) (seed : Bytes) (o : Options) (d : ConnData) (es : List Turn) (d' : ConnData) : Prop :=
  o.secure = false ∧
  match d.serverKey with
  | some k => es = [] ∧ d' = d ∧ Overflows hash seed o d k
  | none => ∃ t, es = [.put [2], .got (1 :: t)] ∧
      ((NoKey t ∧ d' = d) ∨ ∃ k, IsKey t k ∧ Overflows hash seed o d k ∧ d' = { d with serverKey := some k })

end Spec

theorem xorRepeated_length (x nonce : Bytes) : (Spec.xorRepeated x nonce).length = x.length := by
  simp [Spec.xorRepeated, Spec.xor]

theorem overflows_iff (h : Hashes) (h1 : ∀ x, (h.sha1 x).length = 20) (seed : Bytes) (hs : seed.length = 20) (o : Options)
    (d : ConnData) (k : PublicKey) :
    Spec.Overflows h.sha1 seed o d k ↔
      d.nonce = [] ∨ (Crypto.real h seed).rsa k (Spec.xorRepeated (Spec.secret o) d.nonce) = .panic := by
  unfold Spec.Overflows
  rw [show (Crypto.real h seed).rsa k (Spec.xorRepeated (Spec.secret o) d.nonce) =
    k.encryptPadded h seed (Spec.xorRepeated (Spec.secret o) d.nonce) from rfl,
    (C79_encrypt_panics h h1 seed _ hs k).1, xorRepeated_length]

theorem fatal_iff (h : Hashes) (h1 : ∀ x, (h.sha1 x).length = 20) (seed : Bytes) (hs : seed.length = 20) (o : Options)
    (d d' : ConnData) (es : List Turn) :
    Spec.Breaks (Crypto.real h seed) o d es d' ↔ Spec.Fatal h.sha1 seed o d es d' := by
  unfold Spec.Fatal
  simp only [overflows_iff h h1 seed hs, Spec.NoKey, Spec.IsKey, ← C79_key_text, ← C35_exact]
  constructor
  · intro hb
    cases hb with
    | known a b c => rw [b]; exact ⟨a, rfl, rfl, c⟩
    | text a b c => rw [b]; exact ⟨a, _, rfl, .inl ⟨c, rfl⟩⟩
    | asked a b c e => rw [b]; exact ⟨a, _, rfl, .inr ⟨_, c, e, rfl⟩⟩
  · rintro ⟨a, hx⟩
    cases hk : d.serverKey with
    | some k =>
      rw [hk] at hx
      obtain ⟨rfl, rfl, hx⟩ := hx
      exact .known a hk hx
    | none =>
      rw [hk] at hx
      obtain ⟨t, rfl, ⟨ht, rfl⟩ | ⟨k, ht, ho, rfl⟩⟩ := hx
      · exact .text a hk ht
      · exact .asked a hk ht ho

/-- **C79**: with the functions of the code, a login panics exactly at these conversations. -/
theorem C79_login (h : Hashes) (h1 : ∀ x, (h.sha1 x).length = 20) (seed : Bytes) (hs : seed.length = 20)
    (alnum : Char → Bool) (ha : Spec.AlnumLike alnum) (c c' : Conn) :
    login (Crypto.real h seed) alnum c = (.panic, c') ↔
      (∃ g, Talk c [.got g] c' ∧ ((∀ hs p1 p2 rest, ¬ Spec.GreetingForm hs g p1 p2 rest) ∨
        ∃ hs p1 p2 rest, Spec.GreetingForm hs g p1 p2 rest ∧ Spec.VersionBreaks alnum hs.serverVersion)) ∨
      ∃ g d0 w d1 u f d2 c1, Talk c (.got g :: .put (Spec.request h c.options d0) :: w ++ .got (1 :: 4 :: u) :: f) c1 ∧
        Spec.Greets alnum c.options g d0 ∧ (Spec.going c.options d0 = .clear → c.options.allowCleartext = true) ∧
        Spec.Waits h c.options d0 w d1 ∧ Spec.going c.options d1 = .sha2 ∧
        Spec.Fatal h.sha1 seed c.options d1 f d2 ∧ c' = { c1 with data := d2 } := by
  rw [C78_panic]
  simp only [fatal_iff h h1 seed hs, C79_greeting alnum ha]
  rfl

/-- On a secure stream, or with another plugin wanted by the user, only the greeting can break the client. -/
theorem C79_secure (cr : Crypto) (alnum : Char → Bool) (ha : Spec.AlnumLike alnum) (c c' : Conn)
    (hsec : c.options.secure = true ∨ ∃ p, c.options.authPlugin = some p ∧ p ≠ .sha2) :
    login cr alnum c = (.panic, c') ↔
      ∃ g, Talk c [.got g] c' ∧ ((∀ hs p1 p2 rest, ¬ Spec.GreetingForm hs g p1 p2 rest) ∨
        ∃ hs p1 p2 rest, Spec.GreetingForm hs g p1 p2 rest ∧ Spec.VersionBreaks alnum hs.serverVersion) := by
  rw [C78_panic]
  simp only [C79_greeting alnum ha]
  refine or_iff_left ?_
  rintro ⟨g, d0, w, d1, u, f, d2, c1, _, _, _, _, hp, hb, _⟩
  rcases hsec with hsec | ⟨p, hp', hne⟩
  · cases hb with
    | known a _ _ => rw [hsec] at a; cases a
    | text a _ _ => rw [hsec] at a; cases a
    | asked a _ _ _ => rw [hsec] at a; cases a
  · unfold Spec.going at hp
    rw [hp'] at hp
    exact hne hp

namespace C79ex

def rsaBegin : Bytes := Spec.text "-----BEGIN RSA PUBLIC KEY-----"
def rsaEnd : Bytes := Spec.text "-----END RSA PUBLIC KEY-----"

/-- letters and digits; of the other characters, all of more than one byte. -/
def alnum (c : Char) : Bool := (48 ≤ c.toNat && c.toNat ≤ 57) || c.isAlpha || 128 ≤ c.toNat

/-- the hypothesis on letters and digits is met. -/
theorem alnumLike : Spec.AlnumLike alnum := by
  refine ⟨fun c h1 h2 => ?_, by decide⟩
  unfold alnum
  simp [h1, h2]

/-- a client that meets a greeting with this version. -/
def greeted (v : String) : Out Error Unit :=
  (login C28.crypto alnum
    (Conn.initial C28.opts (rxOf (Spec.frames 0 (C36.greeting v 21 ((List.range 12).map UInt8.ofNat ++ [0])).encode)) [])).1

end C79ex

open C79ex in
/-- A key that ends early, one whose exponent is missing, markers with shared dashes: panics; a wrong tag, a length of
nine octets: errors. Versions with a letter of two bytes panic or not, depending on what follows. -/
theorem C79_example :
    tryFromPem (rsaBegin ++ Spec.b64Encode [0x30, 9, 2, 2, 0x0C, 0xA1, 2, 1, 0x11] ++ rsaEnd) = .panic ∧
    tryFromPem (rsaBegin ++ Spec.b64Encode [0x30, 4, 2, 2, 0x0C, 0xA1] ++ rsaEnd) = .panic ∧
    tryFromPem (rsaBegin ++ rsaEnd.drop 3) = .panic ∧
    tryFromPem (rsaBegin ++ Spec.b64Encode [0x31, 9] ++ rsaEnd) = .err .invalidPem ∧
    tryFromPem (rsaBegin ++ Spec.b64Encode [0x30, 0x89] ++ rsaEnd) = .err .invalidPem ∧
    parseServerVersion alnum "08.0.34-log".toList = .ok (some ((8, 0, 34), false)) ∧
    parseServerVersion alnum "8.0.34é".toList = .ok none ∧
    parseServerVersion alnum "8é1.0.34".toList = .ok none ∧
    parseServerVersion alnum "8.0é.34".toList = .panic ∧
    greeted "8.0é.34" = .panic := by
  refine ⟨?_, ?_, ?_, ?_, ?_, ?_, ?_, ?_, ?_, ?_⟩ <;> decide +kernel

end Verif

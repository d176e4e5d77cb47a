import Verif.Props.C35_Pem
import Verif.Proofs.Migrator

/-!
# C35 Which texts are keys, exactly

`C35_pkcs1` and `C35_pkcs8` say that encoded keys are read.  Here is the other direction: whatever is
accepted is, up to white space, one of the two markers around the base64 text of nested
tag-length-content groups with the right tags, and the key is made of the contents of the two
integers.  Together with the converse this says exactly which texts are accepted.
-/

namespace Verif

namespace Spec

/-- The length octets of the basic encoding rules, definite form, of at most eight length octets: one
octet below 128, or the number of octets and the octets.  (Not necessarily the shortest form.  `0x80`
with no octets is the indefinite form; the code takes it for zero.) -/
def BerLength (l : Bytes) (n : Nat) : Prop :=
  (n < 128 ∧ l = [UInt8.ofNat n]) ∨
  (∃ os : Bytes, os.length ≤ 8 ∧ l = UInt8.ofNat (128 + os.length) :: os ∧ os2ip os = n)

/-- `bytes` is tag, length, content and something after it. -/
def Group (tag : UInt8) (content rest bytes : Bytes) : Prop :=
  ∃ l, BerLength l content.length ∧ bytes = tag :: l ++ content ++ rest

/-- a sequence that begins with two integers; what follows them and the sequence is not looked at. -/
def IsPkcs1 (bytes : Bytes) (modulus exponent : Nat) : Prop :=
  ∃ seq m e r0 r1 r2, Group 0x30 seq r0 bytes ∧ Group 0x02 m r1 seq ∧ Group 0x02 e r2 r1 ∧
    modulus = os2ip m ∧ exponent = os2ip e

/-- a sequence that begins with a sequence and a bit string without unused bits which holds a key; the
algorithm is not looked at. -/
def IsSpki (bytes : Bytes) (modulus exponent : Nat) : Prop :=
  ∃ seq alg key r0 r1 r2, Group 0x30 seq r0 bytes ∧ Group 0x30 alg r1 seq ∧
    Group 0x03 (0 :: key) r2 r1 ∧ IsPkcs1 key modulus exponent

end Spec

theorem derLen_iff (s rest : Bytes) (n : Nat) :
    derLen s = (.ok n, rest) ↔ ∃ l, Spec.BerLength l n ∧ s = l ++ rest := by
  have hbit : ∀ k < 256, (UInt8.ofNat k &&& 0x80 = 0x80 ↔ 128 ≤ k) ∧
      (128 ≤ k → (UInt8.ofNat k &&& 0x7F).toNat = k - 128) := by decide +kernel
  cases s with
  | nil =>
    constructor
    · intro h
      exact absurd h (by simp [derLen])
    · rintro ⟨l, hl, hs⟩
      rcases hl with ⟨_, rfl⟩ | ⟨os, _, rfl, _⟩ <;> simp at hs
  | cons b r =>
    have hb := hbit b.toNat b.toNat_lt
    rw [UInt8.ofNat_toNat] at hb
    unfold derLen
    simp only
    by_cases h : b &&& 0x80 = 0x80
    · rw [if_pos h]
      have h128 := hb.1.1 h
      rw [hb.2 h128]
      constructor
      · intro hx
        split at hx
        · simp at hx
        · split at hx
          · simp at hx
          · rename_i h8 hlen
            simp only [Prod.mk.injEq, Out.ok.injEq] at hx
            have htl : (r.take (b.toNat - 128)).length = b.toNat - 128 := by
              rw [List.length_take]; omega
            refine ⟨b :: r.take (b.toNat - 128), .inr ⟨r.take (b.toNat - 128), by omega, ?_, ?_⟩, ?_⟩
            · rw [htl, show 128 + (b.toNat - 128) = b.toNat by omega, UInt8.ofNat_toNat]
            · rw [← beNat_eq_os2ip]; exact hx.1
            · rw [List.cons_append, ← hx.2, List.take_append_drop]
      · rintro ⟨l, hl, hs⟩
        rcases hl with ⟨hn, rfl⟩ | ⟨os, h8, rfl, hos⟩
        · simp only [List.cons_append, List.nil_append, List.cons.injEq] at hs
          rw [hs.1, UInt8.toNat_ofNat', Nat.mod_eq_of_lt (by omega)] at h128
          omega
        · simp only [List.cons_append, List.cons.injEq] at hs
          have e : b.toNat - 128 = os.length := by
            rw [hs.1, UInt8.toNat_ofNat', Nat.mod_eq_of_lt (by omega)]; omega
          rw [e, if_neg (by omega), hs.2, if_neg (by rw [List.length_append]; omega),
            List.take_left, List.drop_left, beNat_eq_os2ip, hos]
    · rw [if_neg h]
      have h128 : b.toNat < 128 := by
        by_contra hx
        exact h (hb.1.2 (by omega))
      constructor
      · intro hx
        simp only [Prod.mk.injEq, Out.ok.injEq] at hx
        refine ⟨[b], .inl ⟨by omega, ?_⟩, ?_⟩
        · rw [← hx.1, UInt8.ofNat_toNat]
        · rw [← hx.2]; rfl
      · rintro ⟨l, hl, hs⟩
        rcases hl with ⟨hn, rfl⟩ | ⟨os, h8, rfl, hos⟩
        · simp only [List.cons_append, List.nil_append, List.cons.injEq] at hs
          rw [hs.1, hs.2, UInt8.toNat_ofNat', Nat.mod_eq_of_lt (by omega)]
        · simp only [List.cons_append, List.cons.injEq] at hs
          rw [hs.1, UInt8.toNat_ofNat', Nat.mod_eq_of_lt (by omega)] at h128
          omega

theorem derTag_iff (t : UInt8) (s rest : Bytes) :
    derTag t s = (.ok (), rest) ↔ s = t :: rest := by
  cases s with
  | nil => simp [derTag]
  | cons b r =>
    by_cases h : b = t
    · simp [derTag, h]
    · simp [derTag, h]

theorem derTake_iff (n : Nat) (s a rest : Bytes) :
    derTake n s = (.ok a, rest) ↔ s = a ++ rest ∧ a.length = n := by
  unfold derTake
  by_cases h : s.length < n
  · rw [if_pos h]
    constructor
    · intro hx; simp at hx
    · rintro ⟨rfl, rfl⟩
      rw [List.length_append] at h
      omega
  · rw [if_neg h]
    constructor
    · intro hx
      simp only [Prod.mk.injEq, Out.ok.injEq] at hx
      rw [← hx.1, ← hx.2, List.take_append_drop, List.length_take]
      exact ⟨rfl, by omega⟩
    · rintro ⟨rfl, rfl⟩
      rw [List.take_left, List.drop_left]

/-- tag, length and content in one. -/
theorem group_iff (t : UInt8) (s a rest : Bytes) :
    (derTag t >>= fun _ => derLen >>= fun n => derTake n) s = (.ok a, rest) ↔
      Spec.Group t a rest s := by
  constructor
  · intro h
    obtain ⟨_, s1, h1, h⟩ := SM.bind_eq_ok.1 h
    obtain ⟨n, s2, h2, h3⟩ := SM.bind_eq_ok.1 h
    have e1 := (derTag_iff t s s1).1 h1
    obtain ⟨l, hl, e2⟩ := (derLen_iff _ _ _).1 h2
    obtain ⟨e3, e4⟩ := (derTake_iff _ _ _ _).1 h3
    refine ⟨l, by rw [e4]; exact hl, ?_⟩
    rw [e1, e2, e3]
    simp
  · rintro ⟨l, hl, rfl⟩
    refine SM.bind_eq_ok.2 ⟨(), l ++ (a ++ rest), (derTag_iff _ _ _).2 (by simp), ?_⟩
    exact SM.bind_eq_ok.2 ⟨a.length, a ++ rest, (derLen_iff _ _ _).2 ⟨l, hl, rfl⟩,
      (derTake_iff _ _ _ _).2 ⟨rfl, rfl⟩⟩

theorem derSequence_iff (s a rest : Bytes) :
    derSequence s = (.ok a, rest) ↔ Spec.Group 0x30 a rest s := group_iff _ _ _ _

theorem derUint_iff (s rest : Bytes) (n : Nat) :
    derUint s = (.ok n, rest) ↔ ∃ a, Spec.Group 0x02 a rest s ∧ n = Spec.os2ip a := by
  have e : derUint = ((derTag 0x02 >>= fun _ => derLen >>= fun n => derTake n) >>= fun bs =>
      pure (beNat bs) : D Nat) := by
    unfold derUint
    rw [sm_assoc]
    congr 1
    funext _
    rw [sm_assoc]
  rw [e]
  constructor
  · intro h
    obtain ⟨a, s1, h1, h2⟩ := SM.bind_eq_ok.1 h
    have : (Out.ok (beNat a), s1) = (Out.ok n, rest) := h2
    simp only [Prod.mk.injEq, Out.ok.injEq] at this
    rw [← this.2, ← this.1, beNat_eq_os2ip]
    exact ⟨a, (group_iff _ _ _ _).1 h1, rfl⟩
  · rintro ⟨a, h, rfl⟩
    rw [← beNat_eq_os2ip]
    exact SM.bind_eq_ok.2 ⟨a, rest, (group_iff _ _ _ _).2 h, rfl⟩

theorem derBits_iff (n : Nat) (s a rest : Bytes) (b : UInt8) :
    derBits n s = (.ok (b, a), rest) ↔ s = b :: a ++ rest ∧ a.length + 1 = n := by
  cases s with
  | nil => simp [derBits]
  | cons x r =>
    unfold derBits
    simp only
    by_cases h : n = 0 ∨ r.length + 1 < n
    · rw [if_pos h]
      constructor
      · intro hx; simp at hx
      · rintro ⟨hs, hn⟩
        simp only [List.cons_append, List.cons.injEq] at hs
        rw [hs.2, List.length_append] at h
        omega
    · rw [if_neg h]
      constructor
      · intro hx
        simp only [Prod.mk.injEq, Out.ok.injEq] at hx
        rw [← hx.1.1, ← hx.1.2, ← hx.2, List.cons_append, List.take_append_drop, List.length_take]
        exact ⟨rfl, by omega⟩
      · rintro ⟨hs, rfl⟩
        simp only [List.cons_append, List.cons.injEq] at hs
        rw [hs.1, hs.2, Nat.add_sub_cancel, List.take_left, List.drop_left]

theorem derBitString_iff (s a rest : Bytes) (b : UInt8) :
    derBitString s = (.ok (b, a), rest) ↔ Spec.Group 0x03 (b :: a) rest s := by
  unfold derBitString
  constructor
  · intro h
    obtain ⟨_, s1, h1, h⟩ := SM.bind_eq_ok.1 h
    obtain ⟨n, s2, h2, h3⟩ := SM.bind_eq_ok.1 h
    have e1 := (derTag_iff _ s s1).1 h1
    obtain ⟨l, hl, e2⟩ := (derLen_iff _ _ _).1 h2
    obtain ⟨e3, e4⟩ := (derBits_iff _ _ _ _ _).1 h3
    refine ⟨l, by rw [List.length_cons, e4]; exact hl, ?_⟩
    rw [e1, e2, e3]
    simp
  · rintro ⟨l, hl, rfl⟩
    refine SM.bind_eq_ok.2 ⟨(), l ++ (b :: a ++ rest), (derTag_iff _ _ _).2 (by simp), ?_⟩
    exact SM.bind_eq_ok.2 ⟨a.length + 1, b :: a ++ rest, (derLen_iff _ _ _).2 ⟨l, hl, rfl⟩,
      (derBits_iff _ _ _ _ _).2 ⟨rfl, rfl⟩⟩

theorem fst_eq_ok {σ ε α : Type} {x : Out ε α × σ} {a : α} :
    x.1 = .ok a ↔ ∃ s, x = (.ok a, s) := by
  constructor
  · intro h; exact ⟨x.2, by rw [← h]⟩
  · rintro ⟨s, rfl⟩; rfl

theorem tryFromPkcs1_iff (der : Bytes) (k : PublicKey) :
    tryFromPkcs1 der = .ok k ↔ Spec.IsPkcs1 der k.modulus k.exponent := by
  unfold tryFromPkcs1
  rw [Out.bind_eq_ok]
  constructor
  · rintro ⟨seq, h0, h⟩
    obtain ⟨r0, h0⟩ := fst_eq_ok.1 h0
    obtain ⟨r2, h⟩ := fst_eq_ok.1 h
    obtain ⟨m, r1, h1, h⟩ := SM.bind_eq_ok.1 h
    obtain ⟨e, r2', h2, h3⟩ := SM.bind_eq_ok.1 h
    have h3 : ((Out.ok { modulus := m, exponent := e } : Out CryptError PublicKey), r2') =
      (.ok k, r2) := h3
    simp only [Prod.mk.injEq, Out.ok.injEq] at h3
    obtain ⟨ma, hm, em⟩ := (derUint_iff _ _ _).1 h1
    obtain ⟨ea, he, ee⟩ := (derUint_iff _ _ _).1 h2
    rw [← h3.1]
    exact ⟨seq, ma, ea, r0, r1, r2', (derSequence_iff _ _ _).1 h0, hm, he, em, ee⟩
  · rintro ⟨seq, m, e, r0, r1, r2, h0, h1, h2, em, ee⟩
    refine ⟨seq, fst_eq_ok.2 ⟨r0, (derSequence_iff _ _ _).2 h0⟩, fst_eq_ok.2 ⟨r2, ?_⟩⟩
    refine SM.bind_eq_ok.2 ⟨k.modulus, r1, (derUint_iff _ _ _).2 ⟨m, h1, em⟩, ?_⟩
    exact SM.bind_eq_ok.2 ⟨k.exponent, r2, (derUint_iff _ _ _).2 ⟨e, h2, ee⟩, rfl⟩

theorem tryFromPkcs8_iff (der : Bytes) (k : PublicKey) :
    tryFromPkcs8 der = .ok k ↔ Spec.IsSpki der k.modulus k.exponent := by
  unfold tryFromPkcs8
  rw [Out.bind_eq_ok]
  constructor
  · rintro ⟨seq, h0, h⟩
    obtain ⟨r0, h0⟩ := fst_eq_ok.1 h0
    rw [Out.bind_eq_ok] at h
    obtain ⟨p, h, h4⟩ := h
    obtain ⟨r2, h⟩ := fst_eq_ok.1 h
    obtain ⟨alg, r1, h1, h2⟩ := SM.bind_eq_ok.1 h
    split at h4
    · simp at h4
    · rename_i hp
      obtain ⟨b, key⟩ := p
      have hb : b = 0 := by simpa using hp
      subst hb
      exact ⟨seq, alg, key, r0, r1, r2, (derSequence_iff _ _ _).1 h0, (derSequence_iff _ _ _).1 h1,
        (derBitString_iff _ _ _ _).1 h2, (tryFromPkcs1_iff _ _).1 h4⟩
  · rintro ⟨seq, alg, key, r0, r1, r2, h0, h1, h2, h3⟩
    refine ⟨seq, fst_eq_ok.2 ⟨r0, (derSequence_iff _ _ _).2 h0⟩, ?_⟩
    rw [Out.bind_eq_ok]
    refine ⟨(0, key), fst_eq_ok.2 ⟨r2, ?_⟩, ?_⟩
    · exact SM.bind_eq_ok.2 ⟨alg, r1, (derSequence_iff _ _ _).2 h1, (derBitString_iff _ _ _ _).2 h2⟩
    · rw [if_neg (by simp)]
      exact (tryFromPkcs1_iff _ _).2 h3

theorem b64Val_char (b : UInt8) (v : Nat) (h : b64Val b = some v) :
    v < 64 ∧ Spec.b64Char v = b := by
  have hall : ∀ n < 256, ∀ v, b64Val (UInt8.ofNat n) = some v →
      v < 64 ∧ Spec.b64Char v = UInt8.ofNat n := by
    have : ∀ n < 256, (b64Val (UInt8.ofNat n)).all
        (fun v => decide (v < 64 ∧ Spec.b64Char v = UInt8.ofNat n)) = true := by decide +kernel
    intro n hn v hv
    have := this n hn
    rw [hv] at this
    simpa using this
  have := hall b.toNat b.toNat_lt v
  rw [UInt8.ofNat_toNat] at this
  exact this h

/-- only base64 texts are decoded, each to the bytes it is the text of. -/
theorem b64Decode_sound : ∀ (n : Nat) (t bs : Bytes), t.length ≤ n → b64Decode t = some bs →
    t = Spec.b64Encode bs
  | _, [], bs, _, h => by
    simp only [b64Decode, Option.some.injEq] at h
    rw [← h]; rfl
  | _, [_], _, _, h => by simp [b64Decode] at h
  | _, [_, _], _, _, h => by simp [b64Decode] at h
  | _, [_, _, _], _, _, h => by simp [b64Decode] at h
  | 0, a :: b :: c :: d :: r, _, hn, _ => by simp at hn
  | n + 1, a :: b :: c :: d :: r, bs, hn, h => by
    simp only [b64Decode, Option.bind_eq_bind, Option.bind_eq_some_iff] at h
    obtain ⟨x, hx, y, hy, h⟩ := h
    obtain ⟨hx64, ex⟩ := b64Val_char a x hx
    obtain ⟨hy64, ey⟩ := b64Val_char b y hy
    split at h
    · rename_i hc
      split at h
      · rename_i hd
        obtain ⟨hd, hr, hm⟩ := hd
        simp only [pure, Option.some.injEq] at h
        rw [← h, hc, hd, hr]
        have e : (UInt8.ofNat (x * 4 + y / 16)).toNat = x * 4 + y / 16 := by
          rw [UInt8.toNat_ofNat', Nat.mod_eq_of_lt (by omega)]
        simp only [Spec.b64Encode, e]
        rw [show (x * 4 + y / 16) / 4 = x by omega, show (x * 4 + y / 16) % 4 * 16 = y by omega, ex, ey]
      · simp at h
    · rw [Option.bind_eq_some_iff] at h
      obtain ⟨z, hz, h⟩ := h
      obtain ⟨hz64, ez⟩ := b64Val_char c z hz
      have e1 : (UInt8.ofNat (x * 4 + y / 16)).toNat = x * 4 + y / 16 := by
        rw [UInt8.toNat_ofNat', Nat.mod_eq_of_lt (by omega)]
      have e2 : (UInt8.ofNat (y % 16 * 16 + z / 4)).toNat = y % 16 * 16 + z / 4 := by
        rw [UInt8.toNat_ofNat', Nat.mod_eq_of_lt (by omega)]
      split at h
      · rename_i hd
        split at h
        · rename_i hr
          obtain ⟨hr, hm⟩ := hr
          simp only [pure, Option.some.injEq] at h
          rw [← h, hd, hr]
          simp only [Spec.b64Encode, e1, e2]
          rw [show (x * 4 + y / 16) / 4 = x by omega,
            show (x * 4 + y / 16) % 4 * 16 + (y % 16 * 16 + z / 4) / 16 = y by omega,
            show (y % 16 * 16 + z / 4) % 16 * 4 = z by omega, ex, ey, ez]
        · simp at h
      · rw [Option.bind_eq_some_iff] at h
        obtain ⟨w, hw, h⟩ := h
        obtain ⟨hw64, ew⟩ := b64Val_char d w hw
        rw [Option.bind_eq_some_iff] at h
        obtain ⟨rest, hrest, h⟩ := h
        simp only [pure, Option.some.injEq] at h
        have ih := b64Decode_sound n r rest (by simp only [List.length_cons] at hn; omega) hrest
        have e3 : (UInt8.ofNat (z % 4 * 64 + w)).toNat = z % 4 * 64 + w := by
          rw [UInt8.toNat_ofNat', Nat.mod_eq_of_lt (by omega)]
        rw [← h]
        simp only [Spec.b64Encode, e1, e2, e3]
        rw [show (x * 4 + y / 16) / 4 = x by omega,
          show (x * 4 + y / 16) % 4 * 16 + (y % 16 * 16 + z / 4) / 16 = y by omega,
          show (y % 16 * 16 + z / 4) % 16 * 4 + (z % 4 * 64 + w) / 64 = z by omega,
          show (z % 4 * 64 + w) % 64 = w by omega, ex, ey, ez, ew, ← ih]

theorem pemBody_iff (pem b e body : Bytes) (hb : b <+: pem) (he : e <:+ pem) :
    pemBody pem b e = .ok body ↔ pem = b ++ body ++ e := by
  constructor
  · intro h
    unfold pemBody at h
    split at h
    · simp at h
    · rename_i hl
      simp only [Out.ok.injEq] at h
      obtain ⟨x, rfl⟩ := he
      rw [List.length_append, Nat.add_sub_cancel] at h hl
      rw [List.take_left] at h
      obtain ⟨y, hy⟩ := hb
      have : b = x.take b.length := by
        have := congrArg (List.take b.length) hy
        rw [List.take_left, List.take_append_of_le_length (by omega)] at this
        exact this
      rw [← h]
      conv_rhs => rw [this]
      rw [List.length_take, Nat.min_eq_left (by omega), List.take_append_drop]
  · rintro rfl
    exact pemBody_markers b body e

/-- **C35** (exactly): a text is accepted as a key if and only if, up to white space, it is one of the
two pairs of markers around the base64 text of bytes that have the structure of that key. -/
theorem C35_exact (t : Bytes) (k : PublicKey) :
    tryFromPem t = .ok k ↔ ∃ body,
      (Spec.SameText t (Spec.text "-----BEGIN RSA PUBLIC KEY-----" ++ Spec.b64Encode body ++
          Spec.text "-----END RSA PUBLIC KEY-----") ∧
        Spec.IsPkcs1 body k.modulus k.exponent) ∨
      (Spec.SameText t (Spec.text "-----BEGIN PUBLIC KEY-----" ++ Spec.b64Encode body ++
          Spec.text "-----END PUBLIC KEY-----") ∧
        Spec.IsSpki body k.modulus k.exponent) := by
  have b1 : (Spec.text "-----BEGIN RSA PUBLIC KEY-----").filter (!Spec.isSpace ·) = pkcs1Begin := by
    decide +kernel
  have e1 : (Spec.text "-----END RSA PUBLIC KEY-----").filter (!Spec.isSpace ·) = pkcs1End := by
    decide +kernel
  have b8 : (Spec.text "-----BEGIN PUBLIC KEY-----").filter (!Spec.isSpace ·) = pkcs8Begin := by
    decide +kernel
  have e8 : (Spec.text "-----END PUBLIC KEY-----").filter (!Spec.isSpace ·) = pkcs8End := by
    decide +kernel
  have same1 : ∀ body, Spec.SameText t (Spec.text "-----BEGIN RSA PUBLIC KEY-----" ++
      Spec.b64Encode body ++ Spec.text "-----END RSA PUBLIC KEY-----") ↔
      t.filter (!Spec.isSpace ·) = pkcs1Begin ++ Spec.b64Encode body ++ pkcs1End := by
    intro body
    unfold Spec.SameText
    rw [List.filter_append, List.filter_append, List.filter_eq_self.2 (b64Encode_no_space body), b1, e1]
  have same8 : ∀ body, Spec.SameText t (Spec.text "-----BEGIN PUBLIC KEY-----" ++
      Spec.b64Encode body ++ Spec.text "-----END PUBLIC KEY-----") ↔
      t.filter (!Spec.isSpace ·) = pkcs8Begin ++ Spec.b64Encode body ++ pkcs8End := by
    intro body
    unfold Spec.SameText
    rw [List.filter_append, List.filter_append, List.filter_eq_self.2 (b64Encode_no_space body), b8, e8]
  have hne : ∀ x y : Bytes, pkcs1Begin ++ x ≠ pkcs8Begin ++ y := by
    intro x y h
    have := congrArg (List.take 11) h
    rw [List.take_append_of_le_length (by decide +kernel),
      List.take_append_of_le_length (by decide +kernel)] at this
    exact absurd this (by decide +kernel)
  simp only [same1, same8]
  unfold tryFromPem
  simp only [pemSpace_eq]
  generalize t.filter (!Spec.isSpace ·) = pem
  rw [Out.bind_eq_ok]
  by_cases h1 : pkcs1Begin.isPrefixOf pem ∧ pkcs1End.isSuffixOf pem
  · rw [if_pos h1]
    rw [List.isPrefixOf_iff_prefix, List.isSuffixOf_iff_suffix] at h1
    constructor
    · rintro ⟨p, hp, h⟩
      cases hq : pemBody pem pkcs1Begin pkcs1End with
      | err x => rw [hq] at hp; simp at hp
      | panic => rw [hq] at hp; simp at hp
      | ok q =>
        rw [hq] at hp
        simp only [Out.map'_ok, Out.ok.injEq] at hp
        subst hp
        cases hd : b64Decode q with
        | none => rw [hd] at h; simp at h
        | some body =>
          rw [hd] at h
          simp only [if_true] at h
          refine ⟨body, .inl ⟨?_, (tryFromPkcs1_iff _ _).1 h⟩⟩
          rw [← b64Decode_sound _ _ _ le_rfl hd]
          exact (pemBody_iff _ _ _ _ h1.1 h1.2).1 hq
    · rintro ⟨body, ⟨hp, hk⟩ | ⟨hp, hk⟩⟩
      · refine ⟨(Spec.b64Encode body, true), ?_, ?_⟩
        · rw [(pemBody_iff _ _ _ _ h1.1 h1.2).2 hp, Out.map'_ok]
        · simp only [b64Decode_b64Encode, if_true]
          exact (tryFromPkcs1_iff _ _).2 hk
      · exfalso
        obtain ⟨x, hx⟩ := h1.1
        rw [hp, List.append_assoc] at hx
        exact hne _ _ hx
  · rw [if_neg h1]
    by_cases h8 : pkcs8Begin.isPrefixOf pem ∧ pkcs8End.isSuffixOf pem
    · rw [if_pos h8]
      rw [List.isPrefixOf_iff_prefix, List.isSuffixOf_iff_suffix] at h1 h8
      constructor
      · rintro ⟨p, hp, h⟩
        cases hq : pemBody pem pkcs8Begin pkcs8End with
        | err x => rw [hq] at hp; simp at hp
        | panic => rw [hq] at hp; simp at hp
        | ok q =>
          rw [hq] at hp
          simp only [Out.map'_ok, Out.ok.injEq] at hp
          subst hp
          cases hd : b64Decode q with
          | none => rw [hd] at h; simp at h
          | some body =>
            rw [hd] at h
            simp only [Bool.false_eq_true, if_false] at h
            refine ⟨body, .inr ⟨?_, (tryFromPkcs8_iff _ _).1 h⟩⟩
            rw [← b64Decode_sound _ _ _ le_rfl hd]
            exact (pemBody_iff _ _ _ _ h8.1 h8.2).1 hq
      · rintro ⟨body, ⟨hp, hk⟩ | ⟨hp, hk⟩⟩
        · exfalso
          refine h1 ⟨?_, ?_⟩
          · rw [hp, List.append_assoc]; exact List.prefix_append _ _
          · rw [hp]; exact List.suffix_append _ _
        · refine ⟨(Spec.b64Encode body, false), ?_, ?_⟩
          · rw [(pemBody_iff _ _ _ _ h8.1 h8.2).2 hp, Out.map'_ok]
          · simp only [b64Decode_b64Encode, Bool.false_eq_true, if_false]
            exact (tryFromPkcs8_iff _ _).2 hk
    · rw [if_neg h8]
      rw [List.isPrefixOf_iff_prefix, List.isSuffixOf_iff_suffix] at h1 h8
      constructor
      · rintro ⟨p, hp, _⟩
        simp at hp
      · rintro ⟨body, ⟨hp, hk⟩ | ⟨hp, hk⟩⟩
        · exfalso
          refine h1 ⟨?_, ?_⟩
          · rw [hp, List.append_assoc]; exact List.prefix_append _ _
          · rw [hp]; exact List.suffix_append _ _
        · exfalso
          refine h8 ⟨?_, ?_⟩
          · rw [hp, List.append_assoc]; exact List.prefix_append _ _
          · rw [hp]; exact List.suffix_append _ _

/-- an octet string (tag 4) where the modulus should be: refused. -/
example : tryFromPem (Spec.text "-----BEGIN RSA PUBLIC KEY-----\nMAcEAgyhAgER\n-----END RSA PUBLIC KEY-----\n")
    = .err .invalidPem := by
  decide +kernel

/-- a length in three octets instead of one, and a byte after the key: accepted, though not DER. -/
example : tryFromPkcs1 [0x30, 0x82, 0, 7, 2, 2, 0x0C, 0xA1, 2, 1, 0x11, 0xFF] =
    .ok { modulus := 3233, exponent := 17 } := by
  decide +kernel

/-- **C35 is violated** for bytes that end early: the parser panics instead of refusing them. -/
theorem C35_short_violated :
    tryFromPem (Spec.text "-----BEGIN RSA PUBLIC KEY----------END RSA PUBLIC KEY-----") = .panic ∧
    tryFromPkcs1 [0x30, 7, 2, 2, 0x0C, 0xA1] = .panic := by
  decide +kernel

end Verif

import Verif.Props.C33_Oaep
import Verif.Proofs.Rsa
import Mathlib.FieldTheory.Finite.Basic
import Mathlib.NumberTheory.LucasLehmer

/-!
# C34 RSA encryption yields a full-size block the key owner can decrypt
-/

namespace Verif

/-- the octet count of the code is the right one except for bit lengths 1 mod 8. -/
theorem numOctets_eq (k : PublicKey) (hb : natBits k.modulus % 8 ≠ 1) :
    k.numOctets = Spec.octets k.modulus := by
  unfold PublicKey.numOctets Spec.octets
  unfold natBits at *
  by_cases h : k.modulus = 0
  · simp [h]
  · rw [if_neg h] at hb ⊢
    rw [if_neg h]
    omega

theorem encryptPadded_eq (h : Hashes) (seed : Bytes) (k : PublicKey) (data em : Bytes)
    (hb : natBits k.modulus % 8 ≠ 1)
    (he : oaepPad h seed data (Spec.octets k.modulus) = .ok em) (hm : k.modulus ≠ 0) :
    ∃ c, k.encryptPadded h seed data = .ok c ∧ c.length = Spec.octets k.modulus ∧
      Spec.os2ip c = Spec.os2ip em ^ k.exponent % k.modulus := by
  have hk : 1 ≤ Spec.octets k.modulus := by unfold Spec.octets; rw [if_neg hm]; omega
  obtain ⟨h1, h2⟩ := toBytesBe_spec (beNat em ^ k.exponent % k.modulus)
  have h3 := h2 (Spec.octets k.modulus) hk
    (lt_trans (Nat.mod_lt _ (Nat.pos_of_ne_zero hm)) (lt_pow_octets _))
  refine ⟨List.replicate (Spec.octets k.modulus -
    (toBytesBe (beNat em ^ k.exponent % k.modulus)).length) 0 ++
      toBytesBe (beNat em ^ k.exponent % k.modulus), ?_, ?_, ?_⟩
  · unfold PublicKey.encryptPadded
    simp only []
    rw [numOctets_eq k hb, he, Out.ok_bind, if_neg hm, if_neg (by omega)]
  · rw [List.length_append, List.length_replicate]
    omega
  · rw [os2ip_append, os2ip_zeros, Nat.zero_mul, Nat.zero_add, h1, beNat_eq_os2ip]

/-- **C34** (block): unless the bit length of the modulus is 1 mod 8, encrypting a message that can
be padded yields a block as long as the modulus whose value is the `e`-th power of the padded
message. -/
theorem C34_block_partial (h : Hashes) (seed : Bytes) (k : PublicKey) (data em : Bytes)
    (hb : natBits k.modulus % 8 ≠ 1)
    (he : oaepPad h seed data (Spec.octets k.modulus) = .ok em) :
    ∃ c, k.encryptPadded h seed data = .ok c ∧ c.length = Spec.octets k.modulus ∧
      Spec.os2ip c = Spec.os2ip em ^ k.exponent % k.modulus := by
  refine encryptPadded_eq h seed k data em hb he fun hm => ?_
  unfold Spec.octets oaepPad HASH_LEN at he
  rw [if_pos hm, if_pos (by omega)] at he
  exact absurd he (by simp)

/-- Fermat: what makes RSA work modulo one prime. -/
theorem rsa_mod_prime {p : Nat} (hp : p.Prime) (m : Nat) {t j : Nat} (ht : t = 1 + j * (p - 1)) :
    m ^ t ≡ m [MOD p] := by
  have := Fact.mk hp
  rw [← ZMod.natCast_eq_natCast_iff]
  push_cast
  subst ht
  by_cases h0 : (m : ZMod p) = 0
  · rw [h0, zero_pow (by omega)]
  · rw [pow_add, pow_one, mul_comm j, pow_mul, ZMod.pow_card_sub_one_eq_one h0, one_pow, mul_one]

/-- RSA: raising to `e` and then to `d` is the identity below the modulus. -/
theorem rsa_recovers {p q m e d : Nat} (hp : p.Prime) (hq : q.Prime) (hpq : p ≠ q)
    (hd : ∃ j, e * d = 1 + j * Nat.lcm (p - 1) (q - 1)) (hm : m < p * q) :
    (m ^ e % (p * q)) ^ d % (p * q) = m := by
  obtain ⟨j, hj⟩ := hd
  obtain ⟨a, ha⟩ := Nat.dvd_lcm_left (p - 1) (q - 1)
  obtain ⟨b, hb⟩ := Nat.dvd_lcm_right (p - 1) (q - 1)
  have h1 : m ^ (e * d) ≡ m [MOD p] := rsa_mod_prime hp m (j := j * a) (by rw [hj, ha]; ring)
  have h2 : m ^ (e * d) ≡ m [MOD q] := rsa_mod_prime hq m (j := j * b) (by rw [hj, hb]; ring)
  have hc : Nat.Coprime p q := (Nat.coprime_primes hp hq).2 hpq
  have h3 : m ^ (e * d) ≡ m [MOD p * q] := (Nat.modEq_and_modEq_iff_modEq_mul hc).1 ⟨h1, h2⟩
  rw [← Nat.pow_mod, ← pow_mul, show m ^ (e * d) % (p * q) = m % (p * q) from h3, Nat.mod_eq_of_lt hm]

/-- **C34** (decryptable): the owner of the private key — two distinct primes and an exponent `d`
with `e d ≡ 1` — recovers every message that fits, for every hash function and seed.  Missing: keys
whose bit length is 1 mod 8. -/
theorem C34_decrypts_partial (h : Hashes) (h1 : ∀ x, (h.sha1 x).length = 20) (seed data : Bytes)
    (p q e d : Nat) (hs : seed.length = 20) (hp : p.Prime) (hq : q.Prime) (hpq : p ≠ q)
    (hd : ∃ j, e * d = 1 + j * Nat.lcm (p - 1) (q - 1))
    (hb : natBits (p * q) % 8 ≠ 1)
    (hfit : data.length + 44 ≤ Spec.octets (p * q)) (hn : Spec.octets (p * q) ≤ 20 * 2 ^ 32 + 21) :
    ∃ c, PublicKey.encryptPadded h seed { modulus := p * q, exponent := e } data = .ok c ∧
      Spec.rsaDecrypt h.sha1 (p * q) d c = some data := by
  obtain ⟨em, he, hdec⟩ := C33_decodes h h1 seed data _ hs hfit hn
  obtain ⟨hl, h0⟩ := C33_size h h1 seed data em _ hs he
  have hm : p * q ≠ 0 := Nat.mul_ne_zero hp.ne_zero hq.ne_zero
  obtain ⟨c, hc1, hc2, hc3⟩ := encryptPadded_eq h seed { modulus := p * q, exponent := e } data em hb he hm
  dsimp only at hc2 hc3
  refine ⟨c, hc1, ?_⟩
  have hlt : Spec.os2ip em < p * q := by
    cases em with
    | nil => simp at h0
    | cons b r =>
      simp only [List.head?_cons, Option.some.injEq] at h0
      subst h0
      have h3 := os2ip_lt r
      have h4 := pow_octets_le hm
      rw [← hl, List.length_cons, Nat.add_sub_cancel] at h4
      simp only [Spec.os2ip]
      have : (0 : UInt8).toNat = 0 := rfl
      rw [this]
      omega
  unfold Spec.rsaDecrypt
  rw [if_neg, hc3, rsa_recovers hp hq hpq hd hlt, ← hl]
  · have := i2osp_os2ip em 0
    rw [Nat.zero_mul, Nat.zero_add] at this
    rw [this, hdec]
  · rintro (h | h)
    · exact h hc2
    · rw [hc3] at h
      exact absurd (Nat.mod_lt (Spec.os2ip em ^ e) (Nat.pos_of_ne_zero hm)) (by omega)

theorem oaepPad_ne_panic (h : Hashes) (seed data : Bytes) (n : Nat) :
    oaepPad h seed data n ≠ .panic := by
  have hm : ∀ s l, (∃ x, mgf1 h s l = .ok x) ∨ ∃ e, mgf1 h s l = .err e := fun s l => by
    unfold mgf1
    split
    · exact .inr ⟨_, rfl⟩
    · dsimp only
      split
      · exact .inl ⟨_, rfl⟩
      · exact .inl ⟨_, rfl⟩
  unfold oaepPad
  split
  · simp
  · dsimp only
    rcases hm seed (h.sha1 [] ++ List.replicate (n - HASH_LEN - 1 - data.length - 1 - HASH_LEN) 0 ++
        [1] ++ data).length with ⟨x, hx⟩ | ⟨e, hx⟩
    · rw [hx, Out.ok_bind]
      rcases hm (xorBytes (h.sha1 [] ++ List.replicate
        (n - HASH_LEN - 1 - data.length - 1 - HASH_LEN) 0 ++ [1] ++ data) x) HASH_LEN with
        ⟨y, hy⟩ | ⟨e, hy⟩
      · rw [hy, Out.ok_bind]; simp
      · rw [hy, Out.err_bind]; simp
    · rw [hx, Out.err_bind]; simp

/-- **C34** (no panic): outside the same exception, encryption never panics: not for a zero modulus,
an empty key or any message. -/
theorem C34_no_panic_partial (h : Hashes) (seed : Bytes) (k : PublicKey) (data : Bytes)
    (hb : natBits k.modulus % 8 ≠ 1) : k.encryptPadded h seed data ≠ .panic := by
  cases he : oaepPad h seed data (Spec.octets k.modulus) with
  | ok em =>
    obtain ⟨c, hc, _⟩ := C34_block_partial h seed k data em hb he
    rw [hc]; simp
  | err e =>
    unfold PublicKey.encryptPadded
    simp only []
    rw [numOctets_eq k hb, he]
    simp
  | panic => exact absurd he (oaepPad_ne_panic h seed data _)

namespace C34

/-- 353 bits: one more than a multiple of eight. -/
def oddKey (e : Nat) : PublicKey := { modulus := 2 ^ 353 - 1, exponent := e }

end C34

/-- **C34 is violated** for a modulus of 353 bits: the block is one octet short (a server that
requires the modulus length rejects it), and for some ciphertexts the subtraction underflows. -/
theorem C34_bits_one_violated :
    Spec.octets (2 ^ 353 - 1) = 45 ∧
    ((C34.oddKey 3).encryptPadded C33.toyHashes C33.seed []).map' List.length = .ok 44 ∧
    (C34.oddKey 5).encryptPadded C33.toyHashes C33.seed [] = .panic := by
  refine ⟨by decide +kernel, by decide +kernel, by decide +kernel⟩

/-- and so for every key of such a bit length: whatever is encrypted is one octet short, so that nobody can decrypt it. -/
theorem C34_short_violated (h : Hashes) (seed : Bytes) (k : PublicKey) (data c : Bytes)
    (hb : natBits k.modulus % 8 = 1) (hc : k.encryptPadded h seed data = .ok c) :
    c.length + 1 = Spec.octets k.modulus ∧ ∀ hash d, Spec.rsaDecrypt hash k.modulus d c = none := by
  have hm : k.modulus ≠ 0 := by
    intro h0
    rw [h0] at hb
    exact absurd hb (by decide)
  have ho : k.numOctets + 1 = Spec.octets k.modulus := by
    unfold PublicKey.numOctets Spec.octets
    unfold natBits at *
    rw [if_neg hm] at hb ⊢
    rw [if_neg hm]
    omega
  have hl : c.length = k.numOctets := by
    unfold PublicKey.encryptPadded at hc
    simp only [] at hc
    cases he : oaepPad h seed data k.numOctets with
    | ok em =>
      rw [he, Out.ok_bind, if_neg hm] at hc
      split at hc
      · cases hc
      · cases hc
        rw [List.length_append, List.length_replicate]
        omega
    | err e => rw [he] at hc; cases hc
    | panic => rw [he] at hc; cases hc
  refine ⟨by omega, fun hash d => ?_⟩
  unfold Spec.rsaDecrypt
  rw [if_pos (.inl (by omega))]

/-- **C34**, exactly: what is encrypted for the owner of a key, with a message that fits, is understood by the owner if and
only if the bit length of the modulus is not 1 mod 8. -/
theorem C34_exact_partial (h : Hashes) (h1 : ∀ x, (h.sha1 x).length = 20) (seed data : Bytes)
    (p q e d : Nat) (hs : seed.length = 20) (hp : p.Prime) (hq : q.Prime) (hpq : p ≠ q)
    (hd : ∃ j, e * d = 1 + j * Nat.lcm (p - 1) (q - 1))
    (hfit : data.length + 44 ≤ Spec.octets (p * q)) (hn : Spec.octets (p * q) ≤ 20 * 2 ^ 32 + 21) :
    (∃ c, PublicKey.encryptPadded h seed { modulus := p * q, exponent := e } data = .ok c ∧
      Spec.rsaDecrypt h.sha1 (p * q) d c = some data) ↔ natBits (p * q) % 8 ≠ 1 := by
  refine ⟨fun ⟨c, hc, hr⟩ hb => ?_, fun hb => C34_decrypts_partial h h1 seed data p q e d hs hp hq hpq hd hb hfit hn⟩
  have := (C34_short_violated h seed { modulus := p * q, exponent := e } data c hb hc).2 h.sha1 d
  dsimp only at this
  rw [this] at hr
  cases hr

namespace C34

/-- the private exponent for 65537 and the primes `2 ^ 521 - 1`, `2 ^ 607 - 1`. -/
def d : Nat := 605309440029444797632079365922351903778944636504290628815687804447518401725202045830587428993072200378798732205389608178468869002370652053408838463061590768976059755211666722868590174546762165023955171158423681809701058604934000382033836393559131564093520170601086332978178762009136501271874027235396379522707933355224417396404416034089473

end C34

theorem toy_length (x : Bytes) : (C33.toy x).length = 20 := by simp [C33.toy]

/-- the hypotheses are satisfiable: an 1128-bit key made of two Mersenne primes. -/
example : ∃ c, PublicKey.encryptPadded C33.toyHashes C33.seed
      { modulus := mersenne 521 * mersenne 607, exponent := 65537 } (ascii "secret") = .ok c ∧
    Spec.rsaDecrypt C33.toy (mersenne 521 * mersenne 607) C34.d c = some (ascii "secret") :=
  C34_decrypts_partial C33.toyHashes toy_length C33.seed _ _ _ _ _ (by decide)
    (lucas_lehmer_sufficiency _ (by simp) (by norm_num))
    (lucas_lehmer_sufficiency _ (by simp) (by norm_num))
    (by decide +kernel) ⟨65280, by decide +kernel⟩ (by decide +kernel) (by decide +kernel)
    (by decide +kernel)

end Verif

import Verif.Proofs.Xor

/-!
# C33 RSA padding is decodable
-/

namespace Verif

theorem be32_eq_i2osp4 (n : Nat) : be32 n = Spec.i2osp4 n := by
  have e : ∀ m : Nat, UInt8.ofNat (m % 256) = UInt8.ofNat m := fun m => by
    apply UInt8.toNat_inj.1; simp
  simp only [be32, leBytes, Spec.i2osp4, List.reverse_cons, List.reverse_nil, List.nil_append,
    List.cons_append, e, Nat.div_div_eq_div_mul]

theorem length_flatMap_const {α : Type} {f : α → Bytes} {k : Nat} (hf : ∀ a, (f a).length = k)
    (l : List α) : (l.flatMap f).length = k * l.length := by
  induction l with
  | nil => simp
  | cons a l ih =>
    rw [List.flatMap_cons, List.length_append, hf, ih, List.length_cons, Nat.mul_succ]
    omega

theorem mgf1_eq (h : Hashes) (h1 : ∀ x, (h.sha1 x).length = 20) (seed : Bytes) {len : Nat}
    (hl : len ≤ 20 * 2 ^ 32) : mgf1 h seed len = .ok (Spec.mgf1 h.sha1 seed len) := by
  unfold mgf1 Spec.mgf1
  rw [if_neg (by unfold HASH_LEN; omega)]
  simp only [be32_eq_i2osp4, HASH_LEN]
  have hlen : ∀ n, ((List.range n).flatMap fun i => h.sha1 (seed ++ Spec.i2osp4 i)).length = 20 * n :=
    fun n => by rw [length_flatMap_const (fun i => h1 _), List.length_range]
  by_cases hr : len % 20 > 0
  · rw [if_pos hr]
    have : (len + 19) / 20 = len / 20 + 1 := by omega
    rw [this, List.range_succ, List.flatMap_append, List.take_append, hlen,
      List.take_of_length_le (l := (List.range (len / 20)).flatMap _) (by rw [hlen]; omega)]
    simp only [List.flatMap_cons, List.flatMap_nil, List.append_nil]
    rw [show len - 20 * (len / 20) = len % 20 by omega]
  · rw [if_neg hr, show (len + 19) / 20 = len / 20 by omega,
      List.take_of_length_le (by rw [hlen]; omega)]

theorem mgf1_too_long (h : Hashes) (seed : Bytes) {len : Nat} (hl : ¬ len ≤ 20 * 2 ^ 32) :
    mgf1 h seed len = .err .messageTooLong := by
  unfold mgf1
  rw [if_pos (by unfold HASH_LEN; omega)]

theorem Spec.length_mgf1 {hash : Bytes → Bytes} (h1 : ∀ x, (hash x).length = 20) (seed : Bytes)
    (len : Nat) : (Spec.mgf1 hash seed len).length = len := by
  unfold Spec.mgf1
  rw [List.length_take, length_flatMap_const (fun i => h1 _), List.length_range]
  omega

/-- the parts of a padded block. -/
theorem oaepPad_eq (h : Hashes) (h1 : ∀ x, (h.sha1 x).length = 20) {seed data : Bytes} {n : Nat}
    (hfit : data.length + 44 ≤ n) (hn : n ≤ 20 * 2 ^ 32 + 21) :
    ∃ db, db = h.sha1 [] ++ List.replicate (n - data.length - 42) 0 ++ [1] ++ data ∧
      db.length = n - 21 ∧
      oaepPad h seed data n = .ok (0 :: xorBytes seed (Spec.mgf1 h.sha1
        (xorBytes db (Spec.mgf1 h.sha1 seed (n - 21))) 20) ++
          xorBytes db (Spec.mgf1 h.sha1 seed (n - 21))) := by
  have hdl : (h.sha1 [] ++ List.replicate (n - data.length - 42) 0 ++ [1] ++ data).length = n - 21 := by
    simp only [List.length_append, List.length_replicate, h1, List.length_cons, List.length_nil]
    omega
  refine ⟨_, rfl, hdl, ?_⟩
  unfold oaepPad HASH_LEN
  rw [if_neg (by omega)]
  simp only []
  rw [show n - 20 - 1 - data.length - 1 - 20 = n - data.length - 42 by omega, hdl,
    mgf1_eq h h1 _ (by omega), Out.ok_bind, mgf1_eq h h1 _ (by omega), Out.ok_bind]

/-- the block of RFC 8017 7.1.1 is decoded to the message, for every message of the lengths the RFC allows. -/
theorem block_decodes (hash : Bytes → Bytes) (h1 : ∀ x, (hash x).length = 20) (seed data db : Bytes) (n : Nat)
    (hs : seed.length = 20) (hfit : data.length + 42 ≤ n)
    (hdb : db = hash [] ++ List.replicate (n - data.length - 42) 0 ++ [1] ++ data) (hdl : db.length = n - 21) :
    Spec.oaepDecode hash (0 :: Spec.xor seed (Spec.mgf1 hash (Spec.xor db (Spec.mgf1 hash seed (n - 21))) 20) ++
      Spec.xor db (Spec.mgf1 hash seed (n - 21))) = some data ∧
    (0 :: Spec.xor seed (Spec.mgf1 hash (Spec.xor db (Spec.mgf1 hash seed (n - 21))) 20) ++
      Spec.xor db (Spec.mgf1 hash seed (n - 21))).length = n := by
  have hm : db.length = (Spec.mgf1 hash seed (n - 21)).length := by rw [Spec.length_mgf1 h1, hdl]
  have hlm : (Spec.xor db (Spec.mgf1 hash seed (n - 21))).length = n - 21 := by
    rw [Spec.length_xor hm, hdl]
  generalize hmdb : Spec.xor db (Spec.mgf1 hash seed (n - 21)) = mdb at hlm
  have hsm : seed.length = (Spec.mgf1 hash mdb 20).length := by rw [Spec.length_mgf1 h1, hs]
  have hms : (Spec.xor seed (Spec.mgf1 hash mdb 20)).length = 20 := by
    rw [Spec.length_xor hsm, hs]
  generalize hsd : Spec.xor seed (Spec.mgf1 hash mdb 20) = ms at hms
  have e1 : (0 :: ms ++ mdb).length = n := by
    simp only [List.length_cons, List.length_append, List.cons_append]; omega
  have e2 : ((0 :: ms ++ mdb).drop 1).take 20 = ms := by
    rw [List.cons_append, List.drop_succ_cons, List.drop_zero, ← hms, List.take_left]
  have e3 : (0 :: ms ++ mdb).drop 21 = mdb := by
    rw [List.cons_append, List.drop_succ_cons, ← hms, List.drop_left]
  refine ⟨?_, e1⟩
  unfold Spec.oaepDecode
  rw [if_neg (by rw [e1]; omega)]
  simp only []
  rw [e1, e2, e3, ← hsd, Spec.xor_cancel hsm, ← hmdb, Spec.xor_cancel hm,
    if_neg (by simp), hdb]
  have e4 : (hash [] ++ List.replicate (n - data.length - 42) 0 ++ [1] ++ data).take 20 = hash [] := by
    rw [List.append_assoc, List.append_assoc, ← h1 [], List.take_left]
  have e5 : (hash [] ++ List.replicate (n - data.length - 42) 0 ++ [1] ++ data).drop 20 =
      List.replicate (n - data.length - 42) 0 ++ 1 :: data := by
    rw [List.append_assoc, List.append_assoc, ← h1 [], List.drop_left]
    simp
  rw [if_neg (by rw [e4]; simp), e5]
  have e6 : ∀ k, (List.replicate k (0 : UInt8) ++ 1 :: data).dropWhile (· == 0) = 1 :: data := by
    intro k
    induction k with
    | zero => simp
    | succ k ih => rw [List.replicate_succ, List.cons_append, List.dropWhile_cons_of_pos (by rfl), ih]
  rw [e6]
  rfl

/-- **C33** (decodable): for every hash function with 20-byte digests, every 20-byte seed and every
message that fits (44 bytes of overhead), padding succeeds and the RFC's decoder returns the message. -/
theorem C33_decodes (h : Hashes) (h1 : ∀ x, (h.sha1 x).length = 20) (seed data : Bytes) (n : Nat)
    (hs : seed.length = 20) (hfit : data.length + 44 ≤ n) (hn : n ≤ 20 * 2 ^ 32 + 21) :
    ∃ em, oaepPad h seed data n = .ok em ∧ Spec.oaepDecode h.sha1 em = some data := by
  obtain ⟨db, hdb, hdl, he⟩ := oaepPad_eq (seed := seed) h h1 hfit hn
  refine ⟨_, he, ?_⟩
  have hm : db.length = (Spec.mgf1 h.sha1 seed (n - 21)).length := by rw [Spec.length_mgf1 h1, hdl]
  have hsm : seed.length = (Spec.mgf1 h.sha1 (Spec.xor db (Spec.mgf1 h.sha1 seed (n - 21))) 20).length := by
    rw [Spec.length_mgf1 h1, hs]
  rw [xorBytes_eq_xor hm, xorBytes_eq_xor hsm]
  exact (block_decodes h.sha1 h1 seed data db n hs (by omega) hdb hdl).1

/-- **C33** (size): the padded block has the requested size and starts with a zero byte. -/
theorem C33_size (h : Hashes) (h1 : ∀ x, (h.sha1 x).length = 20) (seed data em : Bytes) (n : Nat)
    (hs : seed.length = 20) (he : oaepPad h seed data n = .ok em) :
    em.length = n ∧ em.head? = some 0 := by
  by_cases hfit : data.length + 44 ≤ n
  · by_cases hn : n ≤ 20 * 2 ^ 32 + 21
    · obtain ⟨db, _, hdl, he'⟩ := oaepPad_eq (seed := seed) h h1 hfit hn
      rw [he'] at he
      injection he with he
      subst he
      have hm : db.length = (Spec.mgf1 h.sha1 seed (n - 21)).length := by
        rw [Spec.length_mgf1 h1, hdl]
      refine ⟨?_, rfl⟩
      have hsm : ∀ m, seed.length = (Spec.mgf1 h.sha1 m 20).length := fun m => by
        rw [Spec.length_mgf1 h1, hs]
      rw [xorBytes_eq_xor hm, xorBytes_eq_xor (hsm _), List.cons_append, List.length_cons,
        List.length_append, Spec.length_xor (hsm _), Spec.length_xor hm]
      omega
    · exfalso
      unfold oaepPad HASH_LEN at he
      rw [if_neg (by omega)] at he
      simp only [] at he
      rw [mgf1_too_long] at he
      · exact absurd he (by simp)
      · simp only [List.length_append, List.length_replicate, h1, List.length_cons, List.length_nil]
        omega
  · exfalso
    unfold oaepPad HASH_LEN at he
    rw [if_pos (by omega)] at he
    exact absurd he (by simp)

/-- **C33** (too long): a message that does not fit is rejected, never truncated. -/
theorem C33_too_long (h : Hashes) (seed data : Bytes) (n : Nat) (hfit : n < data.length + 44) :
    oaepPad h seed data n = .err .messageTooLong := by
  unfold oaepPad HASH_LEN
  rw [if_pos (by omega)]

/-- a block of `n` bytes holds no message longer than `n - 42` bytes. -/
theorem decoded_length {hash : Bytes → Bytes} (h1 : ∀ x, (hash x).length = 20) {em data : Bytes}
    (h : Spec.oaepDecode hash em = some data) : data.length + 42 ≤ em.length := by
  unfold Spec.oaepDecode at h
  split at h
  · cases h
  · rename_i hl
    dsimp only at h
    split at h
    · cases h
    · split at h
      · cases h
      · split at h
        · rename_i b message hd
          split at h
          · injection h with h
            subst h
            have := congrArg List.length hd
            have hle := (List.dropWhile_sublist (fun x : UInt8 => x == 0) (l := (Spec.xor (em.drop 21) (Spec.mgf1 hash
              (Spec.xor ((em.drop 1).take 20) (Spec.mgf1 hash (em.drop 21) 20)) (em.length - 21))).drop 20)).length_le
            rw [this, List.length_cons, List.length_drop, Spec.xor, List.length_zipWith, List.length_drop,
              Spec.length_mgf1 h1] at hle
            omega
          · cases h
        · cases h

/-- **C33**, exactly: a message can be padded to `n` bytes if and only if 44 bytes of the block are left over, whereas a block
of `n` bytes that is decoded to it exists if and only if 42 are.  So the messages that are refused without need are those of
the two longest lengths. -/
theorem C33_exact_partial (h : Hashes) (h1 : ∀ x, (h.sha1 x).length = 20) (seed data : Bytes) (n : Nat)
    (hs : seed.length = 20) (hn : n ≤ 20 * 2 ^ 32 + 21) :
    ((∃ em, oaepPad h seed data n = .ok em) ↔ data.length + 44 ≤ n) ∧
    ((∃ em, em.length = n ∧ Spec.oaepDecode h.sha1 em = some data) ↔ data.length + 42 ≤ n) := by
  refine ⟨⟨fun ⟨em, he⟩ => ?_, fun hf => ?_⟩, fun ⟨em, hl, hd⟩ => hl ▸ decoded_length h1 hd, fun hf => ?_⟩
  · refine Nat.le_of_not_lt fun hlt => ?_
    rw [C33_too_long h seed data n hlt] at he
    cases he
  · obtain ⟨em, he, -⟩ := C33_decodes h h1 seed data n hs hf hn
    exact ⟨em, he⟩
  · obtain ⟨hd, hl⟩ := block_decodes h.sha1 h1 seed data _ n hs hf rfl (by
      simp only [List.length_append, List.length_replicate, h1, List.length_cons, List.length_nil]
      omega)
    exact ⟨_, hl, hd⟩

namespace C33

/-- a toy hash with 20-byte digests that depends on every byte of its input. -/
def toy (bs : Bytes) : Bytes :=
  (List.range 20).map fun i => bs.foldl (fun a b => a * 31 + b + UInt8.ofNat i) (UInt8.ofNat i)

def toyHashes : Hashes := { sha1 := toy, sha256 := toy }

def seed : Bytes := (List.range 20).map UInt8.ofNat

end C33

/-- the RFC allows two more bytes of message than the code (`k - 2 hLen - 2`): a block the decoder
would accept is not produced. -/
theorem C33_limit_violated :
    oaepPad C33.toyHashes C33.seed [7] 43 = .err .messageTooLong ∧
    ∃ em : Bytes, em.length = 43 ∧ Spec.oaepDecode C33.toy em = some [7] := by
  refine ⟨by decide +kernel, ?_⟩
  let db := C33.toy [] ++ [1, 7]
  let mdb := Spec.xor db (Spec.mgf1 C33.toy C33.seed 22)
  exact ⟨0 :: Spec.xor C33.seed (Spec.mgf1 C33.toy mdb 20) ++ mdb, by decide +kernel⟩

/-- a case with a remainder in the mask (block size 64). -/
example : ∃ em, oaepPad C33.toyHashes C33.seed (ascii "secret") 64 = .ok em ∧
    Spec.oaepDecode C33.toy em = some (ascii "secret") ∧
    Spec.oaepDecode (fun bs => (C33.toy bs).reverse) em = none := by
  refine ⟨_, rfl, ?_⟩
  decide +kernel

end Verif

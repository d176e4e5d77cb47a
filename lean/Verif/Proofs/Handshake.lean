import Verif.Model.Auth
import Verif.Spec.Handshake
import Verif.Proofs.Packets

/-!
# Flags, versions and the greeting
-/

namespace Verif

theorem nat_and_two_pow (n i : Nat) : n &&& 2 ^ i = (n.testBit i).toNat * 2 ^ i := by
  apply Nat.eq_of_testBit_eq
  intro j
  rw [Nat.testBit_and, Nat.testBit_two_pow]
  by_cases h : i = j
  · subst h
    cases hb : n.testBit i <;> simp
  · cases hb : n.testBit i <;> simp [h]

theorem hasFlag32_eq (w m : UInt32) (i : Nat) (h : m.toNat = 2 ^ i) :
    hasFlag32 w m = w.toNat.testBit i := by
  have e : (w &&& m == m) = (w.toNat &&& m.toNat == m.toNat) := by
    rw [Bool.eq_iff_iff, beq_iff_eq, beq_iff_eq, ← UInt32.toNat_inj, UInt32.toNat_and]
  unfold hasFlag32
  rw [e, h, nat_and_two_pow]
  cases w.toNat.testBit i <;> simp [Nat.two_pow_pos, Nat.ne_of_lt]

theorem hasFlag16_eq (w m : UInt16) (i : Nat) (h : m.toNat = 2 ^ i) :
    hasFlag16 w m = w.toNat.testBit i := by
  have e : (w &&& m == m) = (w.toNat &&& m.toNat == m.toNat) := by
    rw [Bool.eq_iff_iff, beq_iff_eq, beq_iff_eq, ← UInt16.toNat_inj, UInt16.toNat_and]
  unfold hasFlag16
  rw [e, h, nat_and_two_pow]
  cases w.toNat.testBit i <;> simp [Nat.two_pow_pos, Nat.ne_of_lt]

theorem caps_halves (w : UInt32) :
    UInt32.ofNat (UInt16.ofNat (w.toNat % 65536)).toNat |||
      UInt32.ofNat (UInt16.ofNat (w.toNat / 65536)).toNat <<< 16 = w := by
  have hw := w.toNat_lt
  rw [uint16_toNat_ofNat_of_lt (by omega), uint16_toNat_ofNat_of_lt (by omega)]
  apply UInt32.toNat_inj.1
  rw [UInt32.toNat_or, UInt32.toNat_shiftLeft, uint32_toNat_ofNat_of_lt (by omega),
    uint32_toNat_ofNat_of_lt (by omega)]
  have h16 : (16 : UInt32).toNat % 32 = 16 := rfl
  rw [h16, Nat.mod_eq_of_lt (a := (w.toNat / 65536) <<< 16) (by rw [Nat.shiftLeft_eq]; omega),
    Nat.or_comm,
    ← Nat.shiftLeft_add_eq_or_of_lt (by omega), Nat.shiftLeft_eq]
  omega

theorem cap_all (w : UInt32) : capTryFrom w = .ok w := by
  unfold capTryFrom
  rw [if_pos]
  have : (~~~Cap.ALL) = 0 := by decide
  rw [this, UInt32.and_zero]

theorem status_ok (w : UInt16) (h : w.toNat.testBit 2 = false) : statusTryFrom w = .ok w := by
  unfold statusTryFrom
  rw [if_pos]
  have : (~~~Status.ALL) = 4 := by decide
  rw [this]
  apply UInt16.toNat_inj.1
  rw [UInt16.toNat_and, show (4 : UInt16).toNat = 2 ^ 2 from rfl, nat_and_two_pow, h]
  rfl

theorem eatNullSlice_append (s r : Bytes) (h : ∀ b ∈ s, b ≠ 0) :
    P.eatNullSlice (s ++ 0 :: r) = (.ok s, r) := by
  have hi : (s ++ 0 :: r).findIdx (· == 0) = s.length := by
    rw [List.findIdx_append]
    have : ¬ s.findIdx (· == 0) < s.length := by
      rw [List.findIdx_lt_length]
      rintro ⟨x, hx, h0⟩
      exact h x hx (by simpa using h0)
    rw [if_neg this, List.findIdx_cons]
    simp
  unfold P.eatNullSlice
  simp only [hi]
  rw [if_pos (by simp), List.take_left, ← List.drop_drop, List.drop_left]
  rfl

theorem fromBytes_name (p : AuthPlugin) : AuthPlugin.fromBytes (Spec.pluginName p ++ [0]) = .ok p := by
  cases p <;> decide +kernel

theorem length_decText_pos (n : Nat) : Spec.decText n ≠ [] := by
  unfold Spec.decText; split <;> simp

theorem decText_digit (n : Nat) : ∀ c ∈ Spec.decText n, 48 ≤ c.toNat ∧ c.toNat ≤ 57 := by
  induction n using Nat.strongRecOn with
  | _ n ih =>
    intro c hc
    have key : ∀ d < 10, 48 ≤ (Char.ofNat (48 + d)).toNat ∧ (Char.ofNat (48 + d)).toNat ≤ 57 := by
      decide
    unfold Spec.decText at hc
    split at hc
    · rename_i h
      rw [List.mem_singleton] at hc
      subst hc
      exact key n h
    · rcases List.mem_append.1 hc with hc | hc
      · exact ih (n / 10) (by omega) c hc
      · rw [List.mem_singleton] at hc
        subst hc
        exact key _ (by omega)

theorem decText_value (n : Nat) :
    (Spec.decText n).foldl (fun n c => n * 10 + (c.toNat - 48)) 0 = n := by
  induction n using Nat.strongRecOn with
  | _ n ih =>
    have key : ∀ d < 10, (Char.ofNat (48 + d)).toNat - 48 = d := by decide
    unfold Spec.decText
    split
    · rename_i h
      simp [key n h]
    · rw [List.foldl_append, ih (n / 10) (by omega)]
      simp only [List.foldl_cons, List.foldl_nil]
      rw [key _ (by omega)]
      omega

theorem u16FromStr_decText (n : UInt16) : u16FromStr (Spec.decText n.toNat) = some n := by
  have h0 := length_decText_pos n.toNat
  have hd := decText_digit n.toNat
  have hv := decText_value n.toNat
  unfold u16FromStr
  generalize hs : Spec.decText n.toNat = s at *
  have e : stripPlus s = s := by
    unfold stripPlus
    split
    · have := hd '+' (by simp)
      exact absurd this.1 (by decide)
    · rfl
  rw [e, if_neg]
  · simp only [hv]
    rw [if_pos n.toNat_lt]
    simp
  · rintro (h | h)
    · exact h0 h
    · apply h
      rw [List.all_eq_true]
      intro c hc
      have := hd c hc
      simp [this.1, this.2]

theorem splitAtByte_ascii (a b : Str) (ha : ∀ c ∈ a, c.toNat < 128) :
    splitAtByte (a ++ b) a.length = some (a, b) := by
  induction a with
  | nil => cases b <;> rfl
  | cons c a ih =>
    have h1 : (utf8Char c).length = 1 := by
      unfold utf8Char
      simp only []
      rw [if_pos (ha c (by simp))]
      rfl
    rw [List.cons_append, List.length_cons]
    unfold splitAtByte
    simp only [h1]
    rw [if_neg (by omega), Nat.add_sub_cancel, ih fun x hx => ha x (by simp [hx])]
    rfl

/-- one number of a version: digits followed by an ASCII character that is no letter or digit. -/
theorem eatInt_number (alnum : Char → Bool) (n : UInt16) (sep : Char) (rest : Str)
    (hd : ∀ c, 48 ≤ c.toNat → c.toNat ≤ 57 → alnum c = true) (hs : alnum sep = false)
    (h7 : sep.toNat < 128) :
    eatInt alnum (Spec.decText n.toNat ++ sep :: rest) = .ok (some n, rest) := by
  have hdig := decText_digit n.toNat
  have hi : (Spec.decText n.toNat ++ sep :: rest).findIdx (fun c => !alnum c) =
      (Spec.decText n.toNat).length := by
    rw [List.findIdx_append]
    have : ¬ (Spec.decText n.toNat).findIdx (fun c => !alnum c) < (Spec.decText n.toNat).length := by
      rw [List.findIdx_lt_length]
      rintro ⟨x, hx, h0⟩
      have := hdig x hx
      rw [hd x this.1 this.2] at h0
      exact absurd h0 (by simp)
    rw [if_neg this, List.findIdx_cons]
    simp [hs]
  unfold eatInt
  simp only [hi]
  rw [if_pos (by simp)]
  have e1 := splitAtByte_ascii (Spec.decText n.toNat) (sep :: rest)
    (fun c hc => by have := hdig c hc; omega)
  have e2 := splitAtByte_ascii (Spec.decText n.toNat ++ [sep]) rest (by
    intro c hc
    rcases List.mem_append.1 hc with hc | hc
    · have := hdig c hc; omega
    · rw [List.mem_singleton] at hc; subst hc; exact h7)
  rw [List.append_assoc, List.length_append] at e2
  simp only [List.cons_append, List.nil_append, List.length_cons, List.length_nil] at e2
  rw [e1, e2]
  simp only [u16FromStr_decText]

theorem eatInt_last (alnum : Char → Bool) (n : UInt16)
    (hd : ∀ c, 48 ≤ c.toNat → c.toNat ≤ 57 → alnum c = true) :
    eatInt alnum (Spec.decText n.toNat) = .ok (some n, []) := by
  have hdig := decText_digit n.toNat
  unfold eatInt
  simp only []
  rw [if_neg, u16FromStr_decText]
  rw [List.findIdx_lt_length]
  rintro ⟨x, hx, h0⟩
  have := hdig x hx
  rw [hd x this.1 this.2] at h0
  exact absurd h0 (by simp)

/-- `a.b.c`, then nothing or an ASCII character that is no letter or digit and anything. -/
theorem parseServerVersion_spec (alnum : Char → Bool) (a b c : UInt16) (suffix : Str)
    (hd : ∀ c, 48 ≤ c.toNat → c.toNat ≤ 57 → alnum c = true) (hdot : alnum '.' = false)
    (hs : ∀ x r, suffix = x :: r → alnum x = false ∧ x.toNat < 128) :
    parseServerVersion alnum (Spec.decText a.toNat ++ '.' :: (Spec.decText b.toNat ++ '.' ::
      (Spec.decText c.toNat ++ suffix))) =
      .ok (some ((a, b, c), "MariaDB".toList.isPrefixOf suffix.tail)) := by
  unfold parseServerVersion
  rw [eatInt_number alnum a '.' _ hd hdot (by decide), Out.ok_bind]
  simp only []
  rw [eatInt_number alnum b '.' _ hd hdot (by decide), Out.ok_bind]
  simp only []
  cases suffix with
  | nil =>
    rw [List.append_nil, eatInt_last alnum c hd, Out.ok_bind]
    rfl
  | cons x r =>
    obtain ⟨h1, h2⟩ := hs x r rfl
    rw [eatInt_number alnum c x r hd h1 h2, Out.ok_bind]
    rfl

end Verif

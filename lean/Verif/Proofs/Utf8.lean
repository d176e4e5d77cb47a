import Verif.Model.Utf8
import Verif.Proofs.Wire

/-! UTF-8 encoding and decoding are inverse. -/

namespace Verif

theorem char_toNat_lt (c : Char) : c.toNat < 0x110000 ∧ ¬(0xD800 ≤ c.toNat ∧ c.toNat < 0xE000) := by
  have h := c.valid
  have e : c.toNat = c.val.toNat := rfl
  rcases h with h | ⟨h1, h2⟩
  · rw [e]; omega
  · rw [e]; omega

theorem toNat_ofNat_valid {n : Nat} (h : n < 0x110000) (h2 : ¬(0xD800 ≤ n ∧ n < 0xE000)) :
    (Char.ofNat n).toNat = n := by
  have hv : n.isValidChar := by
    unfold Nat.isValidChar; omega
  unfold Char.ofNat
  rw [dif_pos hv]
  rfl

theorem char_ofNat_toNat (c : Char) : Char.ofNat c.toNat = c := Char.ofNat_toNat c

theorem ofNat8 {n : Nat} (h : n < 256) : (UInt8.ofNat n).toNat = n := uint8_toNat_ofNat_of_lt h

theorem utf8Char_length (c : Char) : 1 ≤ (utf8Char c).length := by
  unfold utf8Char
  simp only
  repeat' split
  all_goals simp

theorem isCont_ofNat {n : Nat} (h : n < 64) : isCont (UInt8.ofNat (0x80 + n)) = true := by
  simp only [isCont, ofNat8 (show 0x80 + n < 256 by omega), Bool.and_eq_true, decide_eq_true_eq]
  omega

theorem contBits_ofNat {n : Nat} (h : n < 64) : contBits (UInt8.ofNat (0x80 + n)) = n := by
  unfold contBits
  rw [ofNat8 (show 0x80 + n < 256 by omega)]
  exact Nat.add_sub_cancel_left _ _

theorem decodeChar_utf8Char (c : Char) (r : Bytes) :
    decodeChar (utf8Char c ++ r) = some (c, r) := by
  obtain ⟨h1, h2⟩ := char_toNat_lt c
  unfold utf8Char
  simp only
  split
  · rename_i h
    rw [List.singleton_append]
    simp only [decodeChar]
    rw [ofNat8 (by omega), if_pos h, char_ofNat_toNat]
  · rename_i h
    split
    · rename_i h'
      have e0 := ofNat8 (show 0xC0 + c.toNat / 64 < 256 by omega)
      have e : code2 (UInt8.ofNat (0xC0 + c.toNat / 64)) (UInt8.ofNat (0x80 + c.toNat % 64))
          = c.toNat := by
        rw [code2, e0, contBits_ofNat (Nat.mod_lt _ (by omega))]; omega
      simp only [List.cons_append, List.nil_append, decodeChar]
      rw [e0, if_neg (by omega), if_neg (by omega), if_pos (by omega), e,
        if_pos ⟨isCont_ofNat (Nat.mod_lt _ (by omega)), by omega⟩, char_ofNat_toNat]
    · rename_i h'
      split
      · rename_i h''
        have e0 := ofNat8 (show 0xE0 + c.toNat / 4096 < 256 by omega)
        have e : code3 (UInt8.ofNat (0xE0 + c.toNat / 4096)) (UInt8.ofNat (0x80 + c.toNat / 64 % 64))
            (UInt8.ofNat (0x80 + c.toNat % 64)) = c.toNat := by
          rw [code3, e0, contBits_ofNat (Nat.mod_lt _ (by omega)),
            contBits_ofNat (Nat.mod_lt _ (by omega))]
          omega
        simp only [List.cons_append, List.nil_append, decodeChar]
        rw [e0, if_neg (by omega), if_neg (by omega), if_neg (by omega), if_pos (by omega), e,
          if_pos ⟨isCont_ofNat (Nat.mod_lt _ (by omega)), isCont_ofNat (Nat.mod_lt _ (by omega)),
            by omega, h2⟩, char_ofNat_toNat]
      · rename_i h''
        have e0 := ofNat8 (show 0xF0 + c.toNat / 262144 < 256 by omega)
        have e : code4 (UInt8.ofNat (0xF0 + c.toNat / 262144))
            (UInt8.ofNat (0x80 + c.toNat / 4096 % 64))
            (UInt8.ofNat (0x80 + c.toNat / 64 % 64))
            (UInt8.ofNat (0x80 + c.toNat % 64)) = c.toNat := by
          rw [code4, e0, contBits_ofNat (Nat.mod_lt _ (by omega)),
            contBits_ofNat (Nat.mod_lt _ (by omega)), contBits_ofNat (Nat.mod_lt _ (by omega))]
          omega
        simp only [List.cons_append, List.nil_append, decodeChar]
        rw [e0, if_neg (by omega), if_neg (by omega), if_neg (by omega), if_neg (by omega),
          if_pos (by omega), e,
          if_pos ⟨isCont_ofNat (Nat.mod_lt _ (by omega)), isCont_ofNat (Nat.mod_lt _ (by omega)),
            isCont_ofNat (Nat.mod_lt _ (by omega)), by omega, h1⟩, char_ofNat_toNat]

theorem fromUtf8Loop_utf8 (s : Str) (f : Nat) (h : (utf8 s).length ≤ f) :
    fromUtf8Loop f (utf8 s) = some s := by
  induction s generalizing f with
  | nil => cases f <;> rfl
  | cons c s ih =>
    have hl := utf8Char_length c
    rw [utf8, List.length_append] at h
    cases f with
    | zero => omega
    | succ f =>
      have hd := decodeChar_utf8Char c (utf8 s)
      have := ih f (by omega)
      rw [utf8]
      cases hc : utf8Char c ++ utf8 s with
      | nil =>
        have := congrArg List.length hc
        rw [List.length_append] at this
        simp at this
        simp [this.1] at hl
      | cons b bs =>
        rw [hc] at hd
        rw [fromUtf8Loop, hd]
        simp only [this, Option.map_some]

theorem fromUtf8_utf8 (s : Str) : fromUtf8 (utf8 s) = some s :=
  fromUtf8Loop_utf8 s _ (Nat.le_refl _)

theorem u8_eq {b : UInt8} {n : Nat} (h : n = b.toNat) : UInt8.ofNat n = b := by
  subst h; simp

theorem isCont_iff {b : UInt8} (h : isCont b = true) :
    contBits b < 64 ∧ b.toNat = 0x80 + contBits b := by
  simp only [isCont, Bool.and_eq_true, decide_eq_true_eq] at h
  unfold contBits
  omega

theorem utf8Char_of_decodeChar {bs r : Bytes} {c : Char} (h : decodeChar bs = some (c, r)) :
    utf8Char c ++ r = bs := by
  cases bs with
  | nil => simp [decodeChar] at h
  | cons b0 bs =>
    have hb0 := b0.toNat_lt
    simp only [decodeChar] at h
    split at h
    · rename_i h0
      simp only [Option.some.injEq, Prod.mk.injEq] at h
      obtain ⟨rfl, rfl⟩ := h
      simp only [utf8Char]
      rw [toNat_ofNat_valid (by omega) (by omega), if_pos h0]
      simp
    · split at h
      · cases h
      · split at h
        · split at h
          · rename_i b1 r1
            split at h
            · rename_i hc
              simp only [Option.some.injEq, Prod.mk.injEq] at h
              obtain ⟨rfl, rfl⟩ := h
              obtain ⟨g1, g2⟩ := isCont_iff hc.1
              have hc2 := hc.2
              have hn : ∃ n, code2 b0 b1 = n ∧ n = (b0.toNat - 0xC0) * 64 + contBits b1 := ⟨_, rfl, rfl⟩
              obtain ⟨n, hn, hn2⟩ := hn
              rw [hn] at hc2 ⊢
              simp only [utf8Char]
              rw [toNat_ofNat_valid (by omega) (by omega), if_neg (by omega), if_pos (by omega)]
              rw [u8_eq (b := b0) (by omega), u8_eq (b := b1) (by omega)]
              rfl
            · cases h
          · cases h
        · split at h
          · split at h
            · rename_i b1 b2 r1
              split at h
              · rename_i hc
                simp only [Option.some.injEq, Prod.mk.injEq] at h
                obtain ⟨rfl, rfl⟩ := h
                obtain ⟨c1, c2, c3, c4⟩ := hc
                obtain ⟨g1, g2⟩ := isCont_iff c1
                obtain ⟨g3, g4⟩ := isCont_iff c2
                have hn : ∃ n, code3 b0 b1 b2 = n ∧
                  n = (b0.toNat - 0xE0) * 4096 + contBits b1 * 64 + contBits b2 := ⟨_, rfl, rfl⟩
                obtain ⟨n, hn, hn2⟩ := hn
                rw [hn] at c3 c4 ⊢
                simp only [utf8Char]
                rw [toNat_ofNat_valid (by omega) (by omega), if_neg (by omega), if_neg (by omega),
                  if_pos (by omega)]
                rw [u8_eq (b := b0) (by omega), u8_eq (b := b1) (by omega),
                  u8_eq (b := b2) (by omega)]
                rfl
              · cases h
            · cases h
          · split at h
            · split at h
              · rename_i b1 b2 b3 r1
                split at h
                · rename_i hc
                  simp only [Option.some.injEq, Prod.mk.injEq] at h
                  obtain ⟨rfl, rfl⟩ := h
                  obtain ⟨c1, c2, c3, c4, c5⟩ := hc
                  obtain ⟨g1, g2⟩ := isCont_iff c1
                  obtain ⟨g3, g4⟩ := isCont_iff c2
                  obtain ⟨g5, g6⟩ := isCont_iff c3
                  have hn : ∃ n, code4 b0 b1 b2 b3 = n ∧
                    n = (b0.toNat - 0xF0) * 262144 + contBits b1 * 4096 + contBits b2 * 64
                      + contBits b3 := ⟨_, rfl, rfl⟩
                  obtain ⟨n, hn, hn2⟩ := hn
                  rw [hn] at c4 c5 ⊢
                  simp only [utf8Char]
                  rw [toNat_ofNat_valid (by omega) (by omega), if_neg (by omega),
                    if_neg (by omega), if_neg (by omega)]
                  rw [u8_eq (b := b0) (by omega), u8_eq (b := b1) (by omega),
                    u8_eq (b := b2) (by omega), u8_eq (b := b3) (by omega)]
                  rfl
                · cases h
              · cases h
            · cases h

theorem utf8_of_fromUtf8Loop (f : Nat) (bs : Bytes) (s : Str) (h : fromUtf8Loop f bs = some s) :
    utf8 s = bs := by
  induction f generalizing bs s with
  | zero =>
    cases bs with
    | nil => simp [fromUtf8Loop] at h; subst h; rfl
    | cons b bs => simp [fromUtf8Loop] at h
  | succ f ih =>
    cases bs with
    | nil => simp [fromUtf8Loop] at h; subst h; rfl
    | cons b bs =>
      rw [fromUtf8Loop] at h
      split at h
      · rename_i c r hd
        rw [Option.map_eq_some_iff] at h
        obtain ⟨s', h1, rfl⟩ := h
        rw [utf8, ih r s' h1]
        exact utf8Char_of_decodeChar hd
      · cases h

theorem utf8_of_fromUtf8 {bs : Bytes} {s : Str} (h : fromUtf8 bs = some s) : utf8 s = bs :=
  utf8_of_fromUtf8Loop _ bs s h

theorem utf8_append (a b : Str) : utf8 (a ++ b) = utf8 a ++ utf8 b := by
  induction a with
  | nil => rfl
  | cons c a ih => simp [utf8, ih]

theorem utf8_inj {a b : Str} (h : utf8 a = utf8 b) : a = b := by
  have h1 := fromUtf8_utf8 a
  rw [h, fromUtf8_utf8] at h1
  exact (Option.some.inj h1).symm

end Verif

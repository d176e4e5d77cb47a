import Verif.Model.Display
import Verif.Spec.Sql
import Verif.Proofs.Text
import Verif.Proofs.Utf8

/-! # Lemmas: displayed values and hexadecimal text -/

namespace Verif

theorem digitChar_toNat {n : Nat} (h : n < 10) : (digitChar n).toNat = 48 + n :=
  toNat_ofNat_valid (by omega) (by omega)

theorem utf8_ascii (c : Char) (h : c.toNat < 128) : utf8Char c = [UInt8.ofNat c.toNat] := by
  unfold utf8Char; dsimp only; rw [if_pos h]

theorem utf8_decStr (n : Nat) : utf8 (decStr n) = Spec.dec n := by
  induction n using Nat.strongRecOn with
  | _ n ih =>
    rw [decStr, Spec.dec]
    split
    · rename_i h
      rw [utf8, utf8, utf8_ascii _ (by rw [digitChar_toNat h]; omega), digitChar_toNat h]
      rfl
    · rename_i h
      have hm : n % 10 < 10 := Nat.mod_lt _ (by omega)
      rw [utf8_append, ih _ (by omega), utf8, utf8,
        utf8_ascii _ (by rw [digitChar_toNat hm]; omega), digitChar_toNat hm]
      rfl

/-- digits only. -/
def AllDigits (s : Str) : Prop := ∀ c ∈ s, 48 ≤ c.toNat ∧ c.toNat ≤ 57

theorem allDigits_decStr (n : Nat) : AllDigits (decStr n) := by
  induction n using Nat.strongRecOn with
  | _ n ih =>
    rw [decStr]
    split
    · rename_i h
      intro c hc
      rw [List.mem_singleton.1 hc, digitChar_toNat h]
      omega
    · rename_i h
      intro c hc
      rcases List.mem_append.1 hc with hc | hc
      · exact ih _ (by omega) c hc
      · have hm : n % 10 < 10 := Nat.mod_lt _ (by omega)
        rw [List.mem_singleton.1 hc, digitChar_toNat hm]
        omega

theorem length_utf8_digits {s : Str} (h : AllDigits s) : (utf8 s).length = s.length := by
  induction s with
  | nil => rfl
  | cons c s ih =>
    have := h c (by simp)
    rw [utf8, utf8_ascii c (by omega), List.length_append, ih fun d hd => h d (by simp [hd])]
    simp; omega

theorem utf8_zeros (k : Nat) : utf8 (List.replicate k '0') = List.replicate k 48 := by
  induction k with
  | zero => rfl
  | succ k ih => rw [List.replicate_succ, utf8, ih, List.replicate_succ]; rfl

theorem utf8_padStr (k n : Nat) : utf8 (padStr k n) = Spec.pad k n := by
  unfold padStr Spec.pad
  rw [utf8_append, utf8_zeros, utf8_decStr, ← utf8_decStr n,
    length_utf8_digits (allDigits_decStr n)]

theorem allDigits_padStr (k n : Nat) : AllDigits (padStr k n) := by
  intro c hc
  rcases List.mem_append.1 hc with hc | hc
  · rw [List.eq_of_mem_replicate hc]; decide
  · exact allDigits_decStr n c hc

theorem utf8_intStr (v : Int) : utf8 (intStr v) = Spec.textInt 0 v := by
  unfold intStr Spec.textInt
  split
  · rw [utf8_append, utf8_decStr]; rfl
  · rw [utf8_decStr]; rfl

theorem utf8_formatDate (y : UInt16) (m d : UInt8) :
    utf8 (formatDate y m d) = Spec.textDate y.toNat m.toNat d.toNat := by
  unfold formatDate Spec.textDate
  simp only [utf8_append, utf8_padStr]
  rfl

/-- number of fraction digits that are written. -/
def fracDigits (us : UInt32) : Nat := if us ≠ 0 then 6 else 0

theorem utf8_formatTime (h : UInt32) (m s : UInt8) (us : UInt32) :
    utf8 (formatTime h m s us)
      = Spec.textClock h.toNat m.toNat s.toNat (fracDigits us) us.toNat := by
  unfold formatTime Spec.textClock fracDigits Spec.textFrac
  simp only [utf8_append, utf8_padStr]
  by_cases h0 : us ≠ 0
  · rw [if_pos h0, if_pos h0, if_neg (by decide), utf8_append, utf8_padStr]
    simp only [Nat.sub_self, Nat.pow_zero, Nat.div_one]
    rfl
  · rw [if_neg h0, if_neg h0, if_pos rfl]
    rfl

theorem fracOk_fracDigits (us : UInt32) (h : us.toNat < 10 ^ 6) :
    Spec.fracOk (fracDigits us) us.toNat := by
  unfold fracDigits Spec.fracOk
  by_cases h0 : us = 0
  · subst h0; decide
  · rw [if_pos h0]
    exact ⟨Nat.le_refl _, h, by simp⟩

/-- no quote and no backslash. -/
def Unquoted (s : Str) : Prop := ∀ c ∈ s, c ≠ '"' ∧ c ≠ '\\'

theorem Unquoted.append {a b : Str} (ha : Unquoted a) (hb : Unquoted b) : Unquoted (a ++ b) := by
  intro c hc
  rcases List.mem_append.1 hc with hc | hc
  · exact ha c hc
  · exact hb c hc

theorem AllDigits.unquoted {s : Str} (h : AllDigits s) : Unquoted s := by
  intro c hc
  have := h c hc
  constructor
  · rintro rfl; revert this; decide
  · rintro rfl; revert this; decide

theorem Unquoted.single (c : Char) (h : c ≠ '"' ∧ c ≠ '\\') : Unquoted [c] := by
  intro d hd
  rw [List.mem_singleton.1 hd]; exact h

theorem Unquoted.nil : Unquoted [] := by intro c hc; cases hc

theorem unquoted_formatDate (y : UInt16) (m d : UInt8) : Unquoted (formatDate y m d) :=
  ((((allDigits_padStr _ _).unquoted.append (.single _ (by decide))).append
    (allDigits_padStr _ _).unquoted).append (.single _ (by decide))).append
    (allDigits_padStr _ _).unquoted

theorem unquoted_formatTime (h : UInt32) (m s : UInt8) (us : UInt32) :
    Unquoted (formatTime h m s us) := by
  refine (((((allDigits_padStr _ _).unquoted.append (.single _ (by decide))).append
    (allDigits_padStr _ _).unquoted).append (.single _ (by decide))).append
    (allDigits_padStr _ _).unquoted).append ?_
  split
  · exact (Unquoted.single _ (by decide)).append (allDigits_padStr _ _).unquoted
  · exact Unquoted.nil

theorem lexString_unquoted (s r : Str) (hs : Unquoted s) (h : r.head? ≠ some '"') :
    Spec.lexString '"' (s ++ '"' :: r) = some (s, r) := by
  induction s with
  | nil =>
    rw [List.nil_append, Spec.lexString.eq_def]
    dsimp only
    rw [if_neg (by decide), if_pos rfl]
    cases r with
    | nil => rfl
    | cons d r => dsimp only; rw [if_neg (by simpa using h)]
  | cons c s ih =>
    obtain ⟨h1, h2⟩ := hs c (by simp)
    rw [List.cons_append, Spec.lexString.eq_def]
    dsimp only
    rw [if_neg h2, if_neg h1, ih fun d hd => hs d (by simp [hd])]
    rfl

theorem lex_quoted (s r : Str) (hs : Unquoted s) (h : r.head? ≠ some '"') :
    Spec.lex ('"' :: (s ++ '"' :: r)) = some (.string s, r) := by
  unfold Spec.lex
  dsimp only
  rw [if_pos rfl, lexString_unquoted s r hs h]
  rfl

/-! ### Hexadecimal text -/

theorem hexDigit_toNat {n : Nat} (h : n < 16) :
    (hexDigit n).toNat = if n < 10 then 48 + n else 87 + n := by
  unfold hexDigit
  split
  · exact toNat_ofNat_valid (by omega) (by omega)
  · exact toNat_ofNat_valid (by omega) (by omega)

theorem hexDigitVal_nat (c : Char) : Spec.hexDigitVal c =
    if 48 ≤ c.toNat ∧ c.toNat ≤ 57 then some (c.toNat - 48)
    else if 97 ≤ c.toNat ∧ c.toNat ≤ 102 then some (c.toNat - 87)
    else if 65 ≤ c.toNat ∧ c.toNat ≤ 70 then some (c.toNat - 55) else none := rfl

theorem hexDigitVal_hexDigit {n : Nat} (h : n < 16) : Spec.hexDigitVal (hexDigit n) = some n := by
  rw [hexDigitVal_nat, hexDigit_toNat h]
  by_cases h1 : n < 10
  · rw [if_pos h1, if_pos (by omega)]
    congr 1; omega
  · rw [if_neg h1, if_neg (by omega), if_pos (by omega)]
    congr 1; omega

theorem hexBytes_hexEncode (bs : Bytes) : Spec.hexBytes (hexEncode bs) = some bs := by
  induction bs with
  | nil => rfl
  | cons b bs ih =>
    have hb := b.toNat_lt
    rw [hexEncode, Spec.hexBytes, hexDigitVal_hexDigit (by omega), hexDigitVal_hexDigit (by omega), ih]
    dsimp only
    congr 2
    exact u8_eq (by omega)

theorem hexEncode_digits (bs : Bytes) : ∀ c ∈ hexEncode bs, (Spec.hexDigitVal c).isSome = true := by
  induction bs with
  | nil => intro c hc; cases hc
  | cons b bs ih =>
    have hb := b.toNat_lt
    intro c hc
    rw [hexEncode] at hc
    rcases List.mem_cons.1 hc with rfl | hc
    · rw [hexDigitVal_hexDigit (by omega)]; rfl
    · rcases List.mem_cons.1 hc with rfl | hc
      · rw [hexDigitVal_hexDigit (by omega)]; rfl
      · exact ih c hc

theorem length_hexEncode (bs : Bytes) : (hexEncode bs).length = 2 * bs.length := by
  induction bs with
  | nil => rfl
  | cons b bs ih => simp only [hexEncode, List.length_cons, ih]; omega

/-- the byte as a character. -/
def latin1 (b : UInt8) : Char := Char.ofNat b.toNat

theorem latin1_toNat (b : UInt8) : (latin1 b).toNat = b.toNat :=
  toNat_ofNat_valid (by have := b.toNat_lt; omega) (by have := b.toNat_lt; omega)

theorem hexVal_spec (b : UInt8) (i : Nat) :
    hexVal b i = Out.ofOption (.invalidChar b i) (Spec.hexDigitVal (latin1 b)) := by
  rw [hexDigitVal_nat, latin1_toNat]
  unfold hexVal
  by_cases h1 : 65 ≤ b.toNat ∧ b.toNat ≤ 70
  · rw [if_pos h1, if_neg (by omega), if_neg (by omega), if_pos h1]; rfl
  · rw [if_neg h1]
    by_cases h2 : 97 ≤ b.toNat ∧ b.toNat ≤ 102
    · rw [if_pos h2, if_neg (by omega), if_pos h2]; rfl
    · rw [if_neg h2]
      by_cases h3 : 48 ≤ b.toNat ∧ b.toNat ≤ 57
      · rw [if_pos h3, if_pos h3]; rfl
      · rw [if_neg h3, if_neg h3, if_neg h2, if_neg h1]; rfl

theorem hexPairs_spec (bs : Bytes) (i : Nat) (h : bs.length % 2 = 0) :
    (∀ out, hexPairs i bs = .ok out ↔ Spec.hexBytes (bs.map latin1) = some out) ∧
    hexPairs i bs ≠ .panic := by
  induction hn : bs.length using Nat.strongRecOn generalizing bs i with
  | _ n ih =>
  match bs with
  | [] => simp [hexPairs, Spec.hexBytes]
  | [_] => simp at h
  | a :: b :: r =>
    obtain ⟨ih1, ih2⟩ := ih r.length (by simp at hn; omega) r (i + 2) (by simp at h; omega) rfl
    rw [hexPairs, hexVal_spec, hexVal_spec, List.map_cons, List.map_cons, Spec.hexBytes]
    cases Spec.hexDigitVal (latin1 a) with
    | none => simp
    | some x =>
      cases Spec.hexDigitVal (latin1 b) with
      | none => simp
      | some y =>
        simp only [Out.ofOption_some, Out.ok_bind]
        cases hr : hexPairs (i + 2) r with
        | ok bs =>
          rw [(ih1 bs).1 hr]
          simp [Nat.mul_comm]
        | err e =>
          have : Spec.hexBytes (r.map latin1) = none := by
            cases hx : Spec.hexBytes (r.map latin1) with
            | none => rfl
            | some o => rw [(ih1 o).2 hx] at hr; cases hr
          rw [this]
          simp
        | panic => exact absurd hr ih2

theorem hexBytes_some {s : Str} {bs : Bytes} (h : Spec.hexBytes s = some bs) :
    s.length % 2 = 0 ∧ ∀ c ∈ s, c.toNat < 128 := by
  induction hn : s.length using Nat.strongRecOn generalizing s bs with
  | _ n ih =>
  match s with
  | [] => simp at hn; subst hn; simp
  | [_] => simp [Spec.hexBytes] at h
  | a :: b :: r =>
    rw [Spec.hexBytes] at h
    cases ha : Spec.hexDigitVal a with
    | none => rw [ha] at h; simp at h
    | some x =>
      cases hb : Spec.hexDigitVal b with
      | none => rw [ha, hb] at h; simp at h
      | some y =>
        cases hr : Spec.hexBytes r with
        | none => rw [ha, hb, hr] at h; simp at h
        | some o =>
          obtain ⟨h1, h2⟩ := ih r.length (by simp at hn; omega) hr rfl
          have small : ∀ {c : Char} {v : Nat}, Spec.hexDigitVal c = some v → c.toNat < 128 := by
            intro c v hv
            rw [hexDigitVal_nat] at hv
            refine Decidable.byContradiction fun hc => ?_
            rw [if_neg (by omega), if_neg (by omega), if_neg (by omega)] at hv
            cases hv
          refine ⟨by simp at hn; omega, ?_⟩
          intro c hc
          rcases List.mem_cons.1 hc with rfl | hc
          · exact small ha
          · rcases List.mem_cons.1 hc with rfl | hc
            · exact small hb
            · exact h2 c hc

theorem utf8_of_ascii {s : Str} (h : ∀ c ∈ s, c.toNat < 128) :
    (utf8 s).map latin1 = s ∧ (utf8 s).length = s.length := by
  induction s with
  | nil => exact ⟨rfl, rfl⟩
  | cons c s ih =>
    obtain ⟨h1, h2⟩ := ih fun d hd => h d (by simp [hd])
    have hc := h c (by simp)
    rw [utf8, utf8_ascii c hc]
    refine ⟨?_, by simp [h2]⟩
    rw [List.singleton_append, List.map_cons, h1]
    congr 1
    unfold latin1
    rw [ofNat8 (by omega)]
    exact char_ofNat_toNat c

/-- bytes below 128 only come from ASCII characters. -/
theorem ascii_of_utf8 {s : Str} (h : ∀ b ∈ utf8 s, b.toNat < 128) : ∀ c ∈ s, c.toNat < 128 := by
  induction s with
  | nil => intro c hc; cases hc
  | cons c s ih =>
    intro d hd
    rcases List.mem_cons.1 hd with rfl | hd
    · refine Decidable.byContradiction fun hc => ?_
      have hlt := (char_toNat_lt d).1
      have h1 : ∃ b ∈ utf8Char d, 128 ≤ b.toNat := by
        unfold utf8Char
        dsimp only
        rw [if_neg hc]
        split
        · exact ⟨_, List.mem_cons_self, by rw [ofNat8 (by omega)]; omega⟩
        · split
          · exact ⟨_, List.mem_cons_self, by rw [ofNat8 (by omega)]; omega⟩
          · exact ⟨_, List.mem_cons_self, by rw [ofNat8 (by omega)]; omega⟩
      obtain ⟨b, hb, hb2⟩ := h1
      have := h b (by rw [utf8]; exact List.mem_append_left _ hb)
      omega
    · exact ih (fun b hb => h b (by rw [utf8]; exact List.mem_append_right _ hb)) d hd

theorem hexDecode_spec (s : Str) :
    (∀ out, hexDecode (utf8 s) = .ok out ↔ Spec.hexBytes s = some out) ∧
    hexDecode (utf8 s) ≠ .panic := by
  unfold hexDecode
  by_cases hl : (utf8 s).length % 2 ≠ 0
  · rw [if_pos hl]
    refine ⟨fun out => ⟨fun h => (by cases h), fun h => ?_⟩, by simp⟩
    obtain ⟨h1, h2⟩ := hexBytes_some h
    rw [(utf8_of_ascii h2).2] at hl
    exact absurd h1 hl
  · rw [if_neg hl]
    obtain ⟨h1, h2⟩ := hexPairs_spec (utf8 s) 0 (by omega)
    refine ⟨fun out => ?_, h2⟩
    rw [h1]
    constructor
    · intro h
      have h3 := (hexBytes_some h).2
      have h4 : ∀ c ∈ s, c.toNat < 128 := by
        apply ascii_of_utf8
        intro b hb
        rw [← latin1_toNat]
        exact h3 _ (List.mem_map_of_mem hb)
      rwa [(utf8_of_ascii h4).1] at h
    · intro h
      rwa [(utf8_of_ascii (hexBytes_some h).2).1]

end Verif

import Verif.Spec.Text
import Verif.Proofs.Row
import Verif.Proofs.Utf8

/-! Helper lemmas about the text form of values. -/

namespace Verif

def Digits (bs : Bytes) : Prop := ∀ b ∈ bs, 48 ≤ b.toNat ∧ b.toNat ≤ 57

def valStep (acc : Nat) (b : UInt8) : Nat := acc * 10 + (b.toNat - 48)

def valOf (acc : Nat) (bs : Bytes) : Nat := bs.foldl valStep acc

theorem valOf_nil (acc : Nat) : valOf acc [] = acc := rfl
theorem valOf_cons (acc : Nat) (b : UInt8) (bs : Bytes) :
    valOf acc (b :: bs) = valOf (acc * 10 + (b.toNat - 48)) bs := by
  unfold valOf
  rw [List.foldl_cons, valStep]

theorem le_valOf (acc : Nat) (bs : Bytes) : acc ≤ valOf acc bs := by
  induction bs generalizing acc with
  | nil => exact Nat.le_refl _
  | cons b bs ih => have := ih (acc * 10 + (b.toNat - 48)); rw [valOf_cons]; omega

theorem valOf_append (acc : Nat) (a b : Bytes) : valOf acc (a ++ b) = valOf (valOf acc a) b := by
  induction a generalizing acc with
  | nil => rfl
  | cons x a ih => simp [valOf_cons, ih]

theorem btouLoop_digits (max acc : Nat) (bs : Bytes) (hd : Digits bs) (ha : acc ≤ max) :
    btouLoop max acc bs = if valOf acc bs ≤ max then some (valOf acc bs) else none := by
  induction bs generalizing acc with
  | nil => simp [btouLoop, valOf_nil, ha]
  | cons b bs ih =>
    have h1 := hd b (by simp)
    have h2 : Digits bs := fun x hx => hd x (by simp [hx])
    rw [btouLoop, if_pos h1]
    by_cases h : acc * 10 + (b.toNat - 48) ≤ max
    · rw [if_pos ⟨by omega, h⟩, ih _ h2 h]; rfl
    · rw [if_neg (fun g => h g.2)]
      have := le_valOf (acc * 10 + (b.toNat - 48)) bs
      rw [if_neg]
      rw [valOf_cons]; omega

theorem btou_digits (max : Nat) (bs : Bytes) (hd : Digits bs) (h0 : bs ≠ []) :
    btou max bs = if valOf 0 bs ≤ max then some (valOf 0 bs) else none := by
  rw [btou, if_neg h0, btouLoop_digits max 0 bs hd (by omega)]

theorem btou_not_digit (max : Nat) (b : UInt8) (bs : Bytes) (hd : ¬(48 ≤ b.toNat ∧ b.toNat ≤ 57)) :
    btou max (b :: bs) = none := by
  rw [btou, if_neg (by simp), btouLoop, if_neg hd]

/-! ### Numerals -/

theorem digit_toNat {n : Nat} (h : n < 10) : (UInt8.ofNat (48 + n)).toNat = 48 + n :=
  ofNat8 (by omega)

theorem digits_dec (n : Nat) : Digits (Spec.dec n) := by
  induction n using Nat.strongRecOn with
  | _ n ih =>
  unfold Spec.dec
  split
  · rename_i h
    intro b hb
    simp only [List.mem_singleton] at hb
    subst hb; rw [digit_toNat h]; omega
  · rename_i h
    intro b hb
    rw [List.mem_append, List.mem_singleton] at hb
    rcases hb with hb | rfl
    · exact ih (n / 10) (by omega) b hb
    · rw [digit_toNat (by omega)]; omega

theorem valOf_dec (n : Nat) : valOf 0 (Spec.dec n) = n := by
  induction n using Nat.strongRecOn with
  | _ n ih =>
  unfold Spec.dec
  split
  · rename_i h
    simp only [valOf_nil, valOf_cons]; rw [digit_toNat h]; omega
  · rename_i h
    rw [valOf_append, ih _ (by omega)]
    simp only [valOf_nil, valOf_cons]; rw [digit_toNat (by omega)]; omega

theorem dec_ne_nil (n : Nat) : Spec.dec n ≠ [] := by
  unfold Spec.dec; split <;> simp

theorem length_dec_le (k n : Nat) (hk : 1 ≤ k) (h : n < 10 ^ k) : (Spec.dec n).length ≤ k := by
  induction k generalizing n with
  | zero => omega
  | succ k ih =>
    unfold Spec.dec
    split
    · simp
    · rename_i hn
      have hk1 : 1 ≤ k := by
        cases k with
        | zero => simp at h; omega
        | succ k => omega
      have := ih (n / 10) hk1 (by rw [Nat.pow_succ] at h; omega)
      simp; omega

theorem digits_append {a b : Bytes} (ha : Digits a) (hb : Digits b) : Digits (a ++ b) := by
  intro x hx
  rcases List.mem_append.mp hx with h | h
  · exact ha x h
  · exact hb x h

theorem digits_zeros (k : Nat) : Digits (List.replicate k 48) := by
  intro x hx
  rw [List.eq_of_mem_replicate hx]; decide

theorem valOf_zeros (k : Nat) : valOf 0 (List.replicate k 48) = 0 := by
  induction k with
  | zero => rfl
  | succ k ih => rw [List.replicate_succ]; exact ih

theorem digits_pad (k n : Nat) : Digits (Spec.pad k n) :=
  digits_append (digits_zeros _) (digits_dec n)

theorem valOf_pad (k n : Nat) : valOf 0 (Spec.pad k n) = n := by
  rw [Spec.pad, valOf_append, valOf_zeros, valOf_dec]

theorem pad_ne_nil (k n : Nat) : Spec.pad k n ≠ [] := by
  unfold Spec.pad; simp [dec_ne_nil]

theorem length_pad {k n : Nat} (hk : 1 ≤ k) (h : n < 10 ^ k) : (Spec.pad k n).length = k := by
  have := length_dec_le k n hk h
  rw [Spec.pad, List.length_append, List.length_replicate]; omega

theorem btou_pad (max k n : Nat) (h : n ≤ max) : btou max (Spec.pad k n) = some n := by
  rw [btou_digits _ _ (digits_pad k n) (pad_ne_nil k n), valOf_pad, if_pos h]

/-! ### Clock texts -/

theorem findIdx_colon (hs r : Bytes) (hd : Digits hs) :
    (hs ++ 0x3A :: r).findIdx (· == 0x3A) = hs.length := by
  induction hs with
  | nil => rfl
  | cons b hs ih =>
    have h1 := hd b (by simp)
    have hb : (b == 0x3A) = false := by
      simp only [beq_eq_false_iff_ne, ne_eq]
      rintro rfl; revert h1; decide
    rw [List.cons_append, List.findIdx_cons, hb]
    simp only [cond_false, List.length_cons]
    rw [ih fun x hx => hd x (by simp [hx])]

theorem ofOption_some' {ε α : Type} {e : ε} {x : Option α} {a : α} (h : x = some a) :
    Out.ofOption e x = .ok a := by rw [h]; rfl

theorem timeTextInner_clock (h m s k us : Nat) (hh : h < 2 ^ 32) (hm : m < 100) (hs : s < 100)
    (hf : Spec.fracOk k us) :
    timeTextInner (Spec.textClock h m s k us) = .ok (UInt32.ofNat (h / 24), UInt8.ofNat (h % 24),
      UInt8.ofNat m, UInt8.ofNat s, UInt32.ofNat us) := by
  obtain ⟨hk, hus, hdvd⟩ := hf
  have lm := length_pad (k := 2) (by omega) hm
  have ls := length_pad (k := 2) (by omega) hs
  generalize hH : Spec.pad 2 h = H
  generalize hM : Spec.pad 2 m = MM at *
  generalize hS : Spec.pad 2 s = SS at *
  generalize hF : Spec.textFrac k us = F
  have hHd : Digits H := hH ▸ digits_pad 2 h
  have e : Spec.textClock h m s k us = H ++ 0x3A :: (MM ++ 0x3A :: (SS ++ F)) := by
    simp only [Spec.textClock, hH, hM, hS, hF]; simp
  obtain ⟨m1, m2, rfl⟩ : ∃ a b, MM = [a, b] := by
    match MM, lm with
    | [a, b], _ => exact ⟨a, b, rfl⟩
  obtain ⟨s1, s2, rfl⟩ : ∃ a b, SS = [a, b] := by
    match SS, ls with
    | [a, b], _ => exact ⟨a, b, rfl⟩
  rw [e]
  have hidx := findIdx_colon H ([m1, m2] ++ 0x3A :: ([s1, s2] ++ F)) hHd
  generalize hV : H ++ 0x3A :: ([m1, m2] ++ 0x3A :: ([s1, s2] ++ F)) = V at *
  have hget : ∀ i, V[H.length + i]? = (0x3A :: ([m1, m2] ++ 0x3A :: ([s1, s2] ++ F)))[i]? := by
    intro i; rw [← hV, List.getElem?_append_right (by omega)]; congr 1; omega
  have hlen : V.length = H.length + 6 + F.length := by rw [← hV]; simp; omega
  have hdrop : ∀ i, V.drop (H.length + i) = (0x3A :: ([m1, m2] ++ 0x3A :: ([s1, s2] ++ F))).drop i := by
    intro i; rw [← hV, List.drop_append]; simp
  have htake : V.take H.length = H := by rw [← hV]; simp
  unfold timeTextInner
  simp only [hidx]
  rw [if_neg (by omega), if_neg (by
    rw [hget 3, hlen]; simp), htake]
  rw [hdrop 1, hdrop 4]
  have b1 : btou 4294967295 H = some h := by rw [← hH]; exact btou_pad _ _ _ (by omega)
  have b2 : btou 255 [m1, m2] = some m := by rw [← hM]; exact btou_pad _ _ _ (by omega)
  have b3 : btou 255 [s1, s2] = some s := by rw [← hS]; exact btou_pad _ _ _ (by omega)
  simp only [List.drop_succ_cons, List.drop_zero, List.cons_append, List.nil_append,
    List.take_succ_cons, List.take_zero]
  rw [ofOption_some' b1, ofOption_some' b2, ofOption_some' b3]
  simp only [Out.ok_bind]
  by_cases hk0 : k = 0
  · have hF0 : F = [] := by rw [← hF, Spec.textFrac, if_pos hk0]
    have hus0 : us = 0 := by
      subst hk0
      exact Nat.eq_zero_of_dvd_of_lt hdvd (by omega)
    rw [hlen, hF0, if_neg (by simp)]
    subst hus0; rfl
  · have hF1 : F = 0x2E :: Spec.pad k (us / 10 ^ (6 - k)) := by
      rw [← hF, Spec.textFrac, if_neg hk0]; rfl
    have hp : 10 ^ k * 10 ^ (6 - k) = 10 ^ 6 := by
      rw [← Nat.pow_add]; congr 1; omega
    have hlt : us / 10 ^ (6 - k) < 10 ^ k := by
      apply Nat.div_lt_of_lt_mul
      rw [Nat.mul_comm, hp]; exact hus
    have hlp := length_pad (k := k) (by omega) hlt
    have hle : us / 10 ^ (6 - k) ≤ us := Nat.div_le_self _ _
    rw [if_pos (by rw [hlen, hF1, List.length_cons, hlp]; omega)]
    rw [if_neg (by rw [hget 6, hF1]; simp)]
    have hd7 : V.drop (H.length + 7) = Spec.pad k (us / 10 ^ (6 - k)) := by
      rw [hdrop 7, hF1]; rfl
    rw [hd7, ofOption_some' (btou_pad _ _ _ (by omega))]
    simp only [Out.ok_bind, hlp]
    rw [Nat.mod_eq_of_lt (show k < 2 ^ 32 by omega), Nat.div_mul_cancel hdvd, if_neg (by omega)]
    simp only [Out.pure_eq, Out.ok_bind]

theorem dateTextInner_date (y m d : Nat) (hy : y < 10000) (hm : m < 100) (hd : d < 100) :
    dateTextInner (Spec.textDate y m d)
      = .ok (UInt16.ofNat y, UInt8.ofNat m, UInt8.ofNat d) := by
  have ly := length_pad (k := 4) (by omega) hy
  have lm := length_pad (k := 2) (by omega) hm
  have ld := length_pad (k := 2) (by omega) hd
  have b1 := btou_pad 65535 4 y (by omega)
  have b2 := btou_pad 255 2 m (by omega)
  have b3 := btou_pad 255 2 d (by omega)
  unfold Spec.textDate
  generalize Spec.pad 4 y = Y at *
  generalize Spec.pad 2 m = MM at *
  generalize Spec.pad 2 d = D at *
  obtain ⟨y1, y2, y3, y4, rfl⟩ : ∃ a b c d, Y = [a, b, c, d] := by
    match Y, ly with
    | [a, b, c, d], _ => exact ⟨a, b, c, d, rfl⟩
  obtain ⟨m1, m2, rfl⟩ : ∃ a b, MM = [a, b] := by
    match MM, lm with
    | [a, b], _ => exact ⟨a, b, rfl⟩
  obtain ⟨d1, d2, rfl⟩ : ∃ a b, D = [a, b] := by
    match D, ld with
    | [a, b], _ => exact ⟨a, b, rfl⟩
  unfold dateTextInner
  simp [b1, b2, b3]

theorem length_textDate {y m d : Nat} (hy : y < 10000) (hm : m < 100) (hd : d < 100) :
    (Spec.textDate y m d).length = 10 := by
  have ly := length_pad (k := 4) (by omega) hy
  have lm := length_pad (k := 2) (by omega) hm
  have ld := length_pad (k := 2) (by omega) hd
  simp [Spec.textDate, ly, lm, ld]

theorem two_le_length_pad (n : Nat) : 2 ≤ (Spec.pad 2 n).length := by
  have : 1 ≤ (Spec.dec n).length := List.length_pos_iff.mpr (dec_ne_nil n)
  rw [Spec.pad, List.length_append, List.length_replicate]; omega

theorem length_textClock_ge (h m s k us : Nat) : 8 ≤ (Spec.textClock h m s k us).length := by
  have h1 := two_le_length_pad h
  have h2 := two_le_length_pad m
  have h3 := two_le_length_pad s
  simp only [Spec.textClock, List.length_append, List.length_singleton]; omega

theorem datetimeText_of {y mo d h m s k us : Nat} (hy : y < 10000) (hmo : mo < 100) (hd : d < 100)
    (hh : h < 24) (hm : m < 100) (hs : s < 100) (hf : Spec.fracOk k us) :
    datetimeText (Spec.textDatetime y mo d h m s k us)
      = .ok (.datetime (UInt16.ofNat y) (UInt8.ofNat mo) (UInt8.ofNat d) (UInt8.ofNat h)
          (UInt8.ofNat m) (UInt8.ofNat s) (UInt32.ofNat us)) := by
  have hl := length_textDate hy hmo hd
  have hc := length_textClock_ge h m s k us
  unfold datetimeText Spec.textDatetime
  rw [if_neg (by simp only [List.length_append, List.length_singleton]; omega)]
  rw [List.append_assoc, List.take_left' hl]
  have hdrop : (Spec.textDate y mo d ++ ([0x20] ++ Spec.textClock h m s k us)).drop 11
      = Spec.textClock h m s k us := by
    rw [← List.append_assoc]
    exact List.drop_left' (by simp [hl])
  rw [hdrop, dateTextInner_date y mo d hy hmo hd,
    timeTextInner_clock h m s k us (by omega) hm hs hf]
  simp only [Out.ok_bind, Out.pure_eq]
  rw [Nat.mod_eq_of_lt hh]

theorem textClock_head (h m s k us : Nat) :
    ∃ b r, Spec.textClock h m s k us = b :: r ∧ 48 ≤ b.toNat ∧ b.toNat ≤ 57 := by
  have hd := digits_pad 2 h
  have h0 := pad_ne_nil 2 h
  unfold Spec.textClock
  generalize Spec.pad 2 h = H at *
  match H, h0 with
  | b :: H, _ => exact ⟨b, _, rfl, hd b (by simp)⟩

theorem timeText_of {neg : Bool} {h m s k us : Nat} (hh : h < 2 ^ 32) (hm : m < 100) (hs : s < 100)
    (hf : Spec.fracOk k us) :
    timeText (Spec.textTime neg h m s k us)
      = .ok (.time neg (UInt32.ofNat (h / 24)) (UInt8.ofNat (h % 24)) (UInt8.ofNat m)
          (UInt8.ofNat s) (UInt32.ofNat us)) := by
  have hin := timeTextInner_clock h m s k us hh hm hs hf
  obtain ⟨b, r, hb, hb1⟩ := textClock_head h m s k us
  unfold timeText Spec.textTime
  cases neg with
  | true =>
    simp only [if_true, List.singleton_append, hin]
    rfl
  | false =>
    have hne : b ≠ 0x2D := by rintro rfl; revert hb1; decide
    rw [hb] at hin ⊢
    simp only [Bool.false_eq_true, if_false, List.nil_append, if_neg hne, hin, Out.ok_bind,
      Out.pure_eq]
    have : (b == 0x2D) = false := by simpa using hne
    rw [this]

end Verif

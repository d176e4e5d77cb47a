import Verif.Spec.AcceptedText
import Verif.Props.C73_Packets
import Verif.Props.C10_TextRows
import Verif.Props.C53_NoPanic

/-! # C74 — exactly which texts are values -/

namespace Verif

theorem numeral_valOf (bs : Bytes) : bs.foldl (fun acc b => 10 * acc + (b.toNat - 48)) 0 = valOf 0 bs := by
  have : ∀ acc, bs.foldl (fun acc b => 10 * acc + (b.toNat - 48)) acc = valOf acc bs := by
    induction bs with
    | nil => intro acc; rfl
    | cons b bs ih =>
      intro acc
      rw [List.foldl_cons, ih, valOf_cons, Nat.mul_comm]
  exact this 0

theorem btouLoop_some {max acc n : Nat} {bs : Bytes} (h : btouLoop max acc bs = some n) : Digits bs := by
  induction bs generalizing acc with
  | nil => intro b hb; cases hb
  | cons b bs ih =>
    rw [btouLoop] at h
    split at h
    · rename_i hb
      split at h
      · intro x hx
        rcases List.mem_cons.1 hx with rfl | hx
        · exact hb
        · exact ih h x hx
      · cases h
    · cases h

theorem btou_iff (max n : Nat) (bs : Bytes) : btou max bs = some n ↔ Spec.Numeral bs n ∧ n ≤ max := by
  unfold Spec.Numeral
  rw [numeral_valOf]
  constructor
  · intro h
    by_cases h0 : bs = []
    · rw [btou, if_pos h0] at h
      cases h
    · have hd : Digits bs := by
        rw [btou, if_neg h0] at h
        exact btouLoop_some h
      rw [btou_digits max bs hd h0] at h
      split at h
      · cases h
        exact ⟨⟨h0, hd, rfl⟩, by assumption⟩
      · cases h
  · rintro ⟨⟨h0, hd, rfl⟩, h⟩
    rw [btou_digits max bs hd h0, if_pos h]

theorem numeral_head {b : UInt8} {r : Bytes} {n : Nat} (h : Spec.Numeral (b :: r) n) :
    48 ≤ b.toNat ∧ b.toNat ≤ 57 := h.2.1 b (by simp)

theorem btoi_iff (min max : Nat) (v : Int) (bs : Bytes) :
    btoi min max bs = some v ↔ Spec.SignedNumeral bs v ∧ -(min : Int) ≤ v ∧ v ≤ max := by
  unfold Spec.SignedNumeral
  cases bs with
  | nil =>
    constructor
    · intro h
      cases h
    · rintro ⟨⟨n, ⟨_, h | ⟨r, h, _⟩⟩ | ⟨_, r, h, _⟩⟩, _⟩
      · exact absurd rfl h.1
      · cases h
      · cases h
  | cons b r =>
    unfold btoi
    dsimp only
    by_cases hp : b = 0x2B
    · rw [if_pos hp]
      subst hp
      rw [Option.map_eq_some_iff]
      constructor
      · rintro ⟨n, h, rfl⟩
        obtain ⟨h1, h2⟩ := (btou_iff _ _ _).1 h
        refine ⟨⟨n, Or.inl ⟨rfl, Or.inr ⟨r, rfl, h1⟩⟩⟩, ?_, ?_⟩
        · show -(min : Int) ≤ (n : Int)
          omega
        · show (n : Int) ≤ max
          omega
      · rintro ⟨⟨n, ⟨rfl, h | ⟨r', h, hn⟩⟩ | ⟨_, r', h, _⟩⟩, h1, h2⟩
        · exact absurd (numeral_head h).1 (by decide)
        · cases h
          exact ⟨n, (btou_iff _ _ _).2 ⟨hn, by omega⟩, rfl⟩
        · cases h
    · rw [if_neg hp]
      by_cases hm : b = 0x2D
      · rw [if_pos hm]
        subst hm
        constructor
        · intro h
          cases hb : btou min r with
          | none => rw [hb] at h; cases h
          | some n =>
            rw [hb] at h
            have h : some (-(n : Int)) = some v := h
            injection h with h
            subst h
            obtain ⟨h1, h2⟩ := (btou_iff _ _ _).1 hb
            exact ⟨⟨n, Or.inr ⟨rfl, r, rfl, h1⟩⟩, by omega, by omega⟩
        · rintro ⟨⟨n, ⟨rfl, h | ⟨r', h, hn⟩⟩ | ⟨rfl, r', h, hn⟩⟩, h1, h2⟩
          · exact absurd (numeral_head h).1 (by decide)
          · cases h
          · cases h
            rw [(btou_iff min n r).2 ⟨hn, by omega⟩]
            rfl
      · rw [if_neg hm, Option.map_eq_some_iff]
        constructor
        · rintro ⟨n, h, rfl⟩
          obtain ⟨h1, h2⟩ := (btou_iff _ _ _).1 h
          refine ⟨⟨n, Or.inl ⟨rfl, Or.inl h1⟩⟩, ?_, ?_⟩
          · show -(min : Int) ≤ (n : Int)
            omega
          · show (n : Int) ≤ max
            omega
        · rintro ⟨⟨n, ⟨rfl, h | ⟨r', h, hn⟩⟩ | ⟨_, r', h, _⟩⟩, h1, h2⟩
          · exact ⟨n, (btou_iff _ _ _).2 ⟨h, by omega⟩, rfl⟩
          · injection h with h _
            exact absurd h hp
          · injection h with h _
            exact absurd h hm

/-! ### Clock -/

/-- what `timeTextInner` does with the parts. -/
def clockParts (invalid : ProtocolError) (hd md sd f : Bytes) :
    Out ProtocolError (UInt32 × UInt8 × UInt8 × UInt8 × UInt32) := do
  let hours ← Out.ofOption invalid (btou 4294967295 hd)
  let minutes ← Out.ofOption invalid (btou 255 md)
  let seconds ← Out.ofOption invalid (btou 255 sd)
  let micros ←
    if 1 < f.length then
      if f[0]? ≠ some 0x2E then .err invalid
      else do
        let buf := f.drop 1
        let m ← Out.ofOption invalid (btou 4294967295 buf)
        let n := buf.length % 2 ^ 32
        if 6 < n ∨ 2 ^ 32 ≤ m * 10 ^ (6 - n) then .panic else pure (m * 10 ^ (6 - n))
    else pure 0
  pure (UInt32.ofNat (hours / 24), UInt8.ofNat (hours % 24), UInt8.ofNat minutes,
    UInt8.ofNat seconds, UInt32.ofNat micros)

theorem timeTextInner_parts (hd md sd f : Bytes) (hh : (0x3A : UInt8) ∉ hd) (hm : md.length = 2)
    (hs : sd.length = 2) :
    timeTextInner (hd ++ [0x3A] ++ md ++ [0x3A] ++ sd ++ f) =
      clockParts (.parse (.invalidValue .time (hd ++ [0x3A] ++ md ++ [0x3A] ++ sd ++ f))) hd md sd f := by
  obtain ⟨m1, m2, rfl⟩ := List.length_eq_two.1 hm
  obtain ⟨s1, s2, rfl⟩ := List.length_eq_two.1 hs
  have hi : (hd ++ [0x3A] ++ [m1, m2] ++ [0x3A] ++ [s1, s2] ++ f).findIdx (· == 0x3A) = hd.length := by
    simp only [List.append_assoc, List.cons_append, List.nil_append]
    rw [List.findIdx_append]
    have : ¬ hd.findIdx (· == 0x3A) < hd.length := by
      rw [List.findIdx_lt_length]
      rintro ⟨x, hx, h0⟩
      rw [beq_iff_eq] at h0
      exact hh (h0 ▸ hx)
    rw [if_neg this, List.findIdx_cons]
    simp
  unfold timeTextInner clockParts
  dsimp only
  rw [hi]
  have hl : (hd ++ [0x3A] ++ [m1, m2] ++ [0x3A] ++ [s1, s2] ++ f).length = hd.length + 6 + f.length := by
    simp
    omega
  have g3 : (hd ++ [0x3A] ++ [m1, m2] ++ [0x3A] ++ [s1, s2] ++ f)[hd.length + 3]? = some 0x3A := by
    simp
  have g6 : (hd ++ [0x3A] ++ [m1, m2] ++ [0x3A] ++ [s1, s2] ++ f)[hd.length + 6]? = f[0]? := by
    simp only [List.append_assoc, List.cons_append, List.nil_append]
    rw [List.getElem?_append_right (by omega), Nat.add_sub_cancel_left]
    rfl
  have t1 : (hd ++ [0x3A] ++ [m1, m2] ++ [0x3A] ++ [s1, s2] ++ f).take hd.length = hd := by
    simp
  have d1 : ((hd ++ [0x3A] ++ [m1, m2] ++ [0x3A] ++ [s1, s2] ++ f).drop (hd.length + 1)).take 2 = [m1, m2] := by
    simp
  have d4 : ((hd ++ [0x3A] ++ [m1, m2] ++ [0x3A] ++ [s1, s2] ++ f).drop (hd.length + 4)).take 2 = [s1, s2] := by
    simp
  have d7 : (hd ++ [0x3A] ++ [m1, m2] ++ [0x3A] ++ [s1, s2] ++ f).drop (hd.length + 7) = f.drop 1 := by
    simp
  rw [if_neg (by omega), if_neg (by rw [g3]; simp), t1, d1, d4, d7, g6, hl]
  have e : (hd.length + 7 < hd.length + 6 + f.length) = (1 < f.length) := by
    apply propext
    omega
  simp only [e]

theorem timeTextInner_shape (value : Bytes) : (∃ e, timeTextInner value = .err e) ∨
    ∃ hd md sd f, (0x3A : UInt8) ∉ hd ∧ md.length = 2 ∧ sd.length = 2 ∧
      value = hd ++ [0x3A] ++ md ++ [0x3A] ++ sd ++ f := by
  unfold timeTextInner
  dsimp only
  split
  · exact Or.inl ⟨_, rfl⟩
  · rename_i hc
    split
    · exact Or.inl ⟨_, rfl⟩
    · rename_i h
      right
      have hmem : (0x3A : UInt8) ∈ value := by
        have := List.findIdx_lt_length.1 (Nat.lt_of_not_le hc)
        obtain ⟨x, hx, h0⟩ := this
        rw [beq_iff_eq] at h0
        exact h0 ▸ hx
      obtain ⟨hd, r, rfl, hh⟩ := List.eq_append_cons_of_mem hmem
      have hi : (hd ++ 0x3A :: r).findIdx (· == 0x3A) = hd.length := by
        rw [List.findIdx_append]
        have : ¬ hd.findIdx (· == 0x3A) < hd.length := by
          rw [List.findIdx_lt_length]
          rintro ⟨x, hx, h0⟩
          rw [beq_iff_eq] at h0
          exact hh (h0 ▸ hx)
        rw [if_neg this, List.findIdx_cons]
        simp
      rw [hi] at h
      have h1 : ¬ (hd ++ 0x3A :: r).length < hd.length + 6 := fun g => h (Or.inl g)
      have h2 : (hd ++ 0x3A :: r)[hd.length + 3]? = some 0x3A :=
        Decidable.not_not.1 fun g => h (Or.inr g)
      rw [List.length_append, List.length_cons] at h1
      obtain ⟨m1, m2, c, s1, s2, f, rfl⟩ : ∃ m1 m2 c s1 s2 f, r = m1 :: m2 :: c :: s1 :: s2 :: f := by
        match r, h1 with
        | m1 :: m2 :: c :: s1 :: s2 :: f, _ => exact ⟨m1, m2, c, s1, s2, f, rfl⟩
        | [], h1 | [_], h1 | [_, _], h1 | [_, _, _], h1 | [_, _, _, _], h1 =>
          simp only [List.length_nil, List.length_cons] at h1
          omega
      have : c = 0x3A := by simpa using h2
      subst this
      exact ⟨hd, [m1, m2], [s1, s2], f, hh, rfl, rfl, by simp⟩

theorem valOf_lt (bs : Bytes) (hd : Digits bs) (acc : Nat) : valOf acc bs < (acc + 1) * 10 ^ bs.length := by
  induction bs generalizing acc with
  | nil => simp [valOf_nil]
  | cons b bs ih =>
    have h1 := hd b (by simp)
    have := ih (fun x hx => hd x (by simp [hx])) (acc * 10 + (b.toNat - 48))
    rw [valOf_cons, List.length_cons, Nat.pow_succ]
    refine Nat.lt_of_lt_of_le this ?_
    rw [Nat.mul_comm (10 ^ bs.length) 10, ← Nat.mul_assoc]
    exact Nat.mul_le_mul_right _ (by omega)

theorem numeral_lt {bs : Bytes} {n : Nat} (h : Spec.Numeral bs n) : n < 10 ^ bs.length := by
  have := valOf_lt bs h.2.1 0
  rw [h.2.2, numeral_valOf]
  omega

theorem numeral_noColon {bs : Bytes} {n : Nat} (h : Spec.Numeral bs n) : (0x3A : UInt8) ∉ bs := by
  intro hm
  exact absurd (h.2.1 _ hm).2 (by decide)

theorem ofOption_iff {α : Type} (e : ProtocolError) (o : Option α) (x : α) :
    Out.ofOption e o = .ok x ↔ o = some x := by
  cases o with
  | none =>
    constructor
    · intro h
      cases h
    · intro h
      cases h
  | some y =>
    constructor
    · intro h
      cases h
      rfl
    · intro h
      cases h
      rfl

/-- the microseconds in `clockParts`. -/
def fracPart (invalid : ProtocolError) (f : Bytes) : Out ProtocolError Nat :=
  if 1 < f.length then
    if f[0]? ≠ some 0x2E then .err invalid
    else do
      let m ← Out.ofOption invalid (btou 4294967295 (f.drop 1))
      let n := (f.drop 1).length % 2 ^ 32
      if 6 < n ∨ 2 ^ 32 ≤ m * 10 ^ (6 - n) then .panic else pure (m * 10 ^ (6 - n))
  else pure 0

theorem digits_lt {f : Bytes} {n : Nat} (hn : Spec.Numeral f n) (hl : f.length ≤ 6) :
    n * 10 ^ (6 - f.length) < 10 ^ 6 := by
  have := numeral_lt hn
  have e : 10 ^ 6 = 10 ^ f.length * 10 ^ (6 - f.length) := by
    rw [← Nat.pow_add]
    congr 1
    omega
  rw [e]
  exact Nat.mul_lt_mul_of_pos_right this (Nat.pow_pos (by omega))

theorem fracPart_ok (e : ProtocolError) (f : Bytes) (us : Nat) : fracPart e f = .ok us ↔ Spec.Fraction f us := by
  unfold fracPart
  match f with
  | [] =>
    rw [if_neg (by simp)]
    constructor
    · intro h
      cases h
      exact .none
    · intro h
      cases h
      rfl
  | [b] =>
    rw [if_neg (by simp)]
    constructor
    · intro h
      cases h
      exact .any b
    · intro h
      cases h with
      | any => rfl
      | digits f n h => exact absurd rfl h.1
      | wrapped f n k h => exact absurd rfl h.1
  | b :: c :: r =>
    rw [if_pos (by simp)]
    by_cases hb : b = 0x2E
    · subst hb
      rw [if_neg (by simp), Out.bind_eq_ok]
      constructor
      · rintro ⟨m, h1, h2⟩
        obtain ⟨hn, hm⟩ := (btou_iff _ _ _).1 ((ofOption_iff _ _ _).1 h1)
        dsimp only at h2
        split at h2
        · cases h2
        · rename_i hl
          cases h2
          rw [not_or] at hl
          by_cases hb : (List.drop 1 (0x2E :: c :: r)).length < 2 ^ 32
          · rw [Nat.mod_eq_of_lt hb] at hl ⊢
            exact .digits _ m hn (Nat.le_of_not_lt hl.1)
          · exact .wrapped _ m _ hn (Nat.le_of_not_lt hb) rfl (Nat.le_of_not_lt hl.1) (Nat.lt_of_not_le hl.2)
      · intro h
        cases h with
        | digits f n hn hl =>
          have h6 : n < 10 ^ 6 := Nat.lt_of_lt_of_le (numeral_lt hn) (Nat.pow_le_pow_right (by omega) hl)
          refine ⟨n, (ofOption_iff _ _ _).2 ((btou_iff _ _ _).2 ⟨hn, by omega⟩), ?_⟩
          have hlt := digits_lt hn hl
          rw [List.drop_one, List.tail_cons]
          dsimp only
          rw [Nat.mod_eq_of_lt (show (c :: r).length < 2 ^ 32 by omega), if_neg (by omega)]
          rfl
        | wrapped f n k hn hl hk h6 hlt =>
          have hn32 : n < 2 ^ 32 := Nat.lt_of_le_of_lt (Nat.le_mul_of_pos_right n (Nat.pow_pos (by omega))) hlt
          refine ⟨n, (ofOption_iff _ _ _).2 ((btou_iff _ _ _).2 ⟨hn, by omega⟩), ?_⟩
          rw [List.drop_one, List.tail_cons]
          dsimp only
          rw [← hk, if_neg (by omega)]
          rfl
    · rw [if_pos (by simpa using hb)]
      constructor
      · intro h
        cases h
      · intro h
        cases h with
        | digits => exact absurd rfl hb
        | wrapped => exact absurd rfl hb

theorem fracPart_panic (e : ProtocolError) (f : Bytes) : fracPart e f = .panic ↔
    ∃ r n, f = 0x2E :: r ∧ Spec.Numeral r n ∧ n < 2 ^ 32 ∧ 6 < r.length ∧
      (6 < r.length % 2 ^ 32 ∨ 2 ^ 32 ≤ n * 10 ^ (6 - r.length % 2 ^ 32)) := by
  unfold fracPart
  match f with
  | [] =>
    rw [if_neg (by simp)]
    constructor
    · intro h
      cases h
    · rintro ⟨r, n, h, _⟩
      cases h
  | [b] =>
    rw [if_neg (by simp)]
    constructor
    · intro h
      cases h
    · rintro ⟨r, n, h, hn, _⟩
      injection h with _ h
      exact absurd h.symm hn.1
  | b :: c :: r =>
    rw [if_pos (by simp)]
    by_cases hb : b = 0x2E
    · subst hb
      rw [if_neg (by simp)]
      constructor
      · intro h
        cases ho : btou 4294967295 (List.drop 1 (0x2E :: c :: r)) with
        | none => rw [ho] at h; cases h
        | some m =>
          rw [ho] at h
          obtain ⟨hn, hm⟩ := (btou_iff _ _ _).1 ho
          by_cases hl : 6 < (List.drop 1 (0x2E :: c :: r)).length % 2 ^ 32 ∨
              2 ^ 32 ≤ m * 10 ^ (6 - (List.drop 1 (0x2E :: c :: r)).length % 2 ^ 32)
          · refine ⟨_, m, rfl, hn, by omega, ?_, hl⟩
            refine Nat.lt_of_not_le fun h6 => ?_
            have hlt := digits_lt hn h6
            rw [List.drop_one, List.tail_cons] at hl hlt
            rw [Nat.mod_eq_of_lt (show (c :: r).length < 2 ^ 32 by omega)] at hl
            omega
          · rw [Out.ofOption_some, Out.ok_bind] at h
            dsimp only at h
            rw [if_neg hl] at h
            cases h
      · rintro ⟨r', n, h, hn, hlt, _, hl⟩
        injection h with _ h
        subst h
        have : btou 4294967295 (List.drop 1 (0x2E :: c :: r)) = some n :=
          (btou_iff _ _ _).2 ⟨hn, by omega⟩
        rw [this, Out.ofOption_some, Out.ok_bind]
        exact if_pos hl
    · rw [if_pos (by simpa using hb)]
      constructor
      · intro h
        cases h
      · rintro ⟨r', n, h, _⟩
        injection h with h _
        exact absurd h hb

theorem clockParts_eq (e : ProtocolError) (hd md sd f : Bytes) : clockParts e hd md sd f = (do
    let hours ← Out.ofOption e (btou 4294967295 hd)
    let minutes ← Out.ofOption e (btou 255 md)
    let seconds ← Out.ofOption e (btou 255 sd)
    let micros ← fracPart e f
    pure (UInt32.ofNat (hours / 24), UInt8.ofNat (hours % 24), UInt8.ofNat minutes,
      UInt8.ofNat seconds, UInt32.ofNat micros)) := by
  unfold clockParts fracPart
  cases btou 4294967295 hd with
  | none => rfl
  | some h =>
    cases btou 255 md with
    | none => rfl
    | some m =>
      cases btou 255 sd with
      | none => rfl
      | some s =>
        simp only [Out.ofOption_some, Out.ok_bind]
        split
        · split
          · rfl
          · cases btou 4294967295 (List.drop 1 f) with
            | none => rfl
            | some n =>
              simp only [Out.ofOption_some, Out.ok_bind]
              split <;> rfl
        · rfl

theorem fraction_lt {f : Bytes} {us : Nat} (h : Spec.Fraction f us) : us < 2 ^ 32 := by
  cases h with
  | none => decide
  | any => decide
  | digits f n hn hl => exact Nat.lt_trans (digits_lt hn hl) (by decide)
  | wrapped f n k hn hl hk h6 hlt => exact hlt

theorem timeTextInner_ok (value : Bytes) (d : UInt32) (h m s : UInt8) (us : UInt32) :
    timeTextInner value = .ok (d, h, m, s, us) ↔
      h.toNat < 24 ∧ Spec.Clock value (d.toNat * 24 + h.toNat) m.toNat s.toNat us.toNat := by
  constructor
  · intro hv
    rcases timeTextInner_shape value with ⟨e, he⟩ | ⟨hd, md, sd, f, hh, hm, hs, rfl⟩
    · rw [he] at hv
      cases hv
    · rw [timeTextInner_parts hd md sd f hh hm hs, clockParts_eq] at hv
      obtain ⟨H, h1, hv⟩ := Out.bind_eq_ok.1 hv
      obtain ⟨M, h2, hv⟩ := Out.bind_eq_ok.1 hv
      obtain ⟨S, h3, hv⟩ := Out.bind_eq_ok.1 hv
      obtain ⟨U, h4, hv⟩ := Out.bind_eq_ok.1 hv
      obtain ⟨n1, l1⟩ := (btou_iff _ _ _).1 ((ofOption_iff _ _ _).1 h1)
      obtain ⟨n2, l2⟩ := (btou_iff _ _ _).1 ((ofOption_iff _ _ _).1 h2)
      obtain ⟨n3, l3⟩ := (btou_iff _ _ _).1 ((ofOption_iff _ _ _).1 h3)
      have n4 := (fracPart_ok _ _ _).1 h4
      have l4 := fraction_lt n4
      cases hv
      have e1 : (UInt32.ofNat (H / 24)).toNat = H / 24 := uint32_toNat_ofNat_of_lt (by omega)
      have e2 : (UInt8.ofNat (H % 24)).toNat = H % 24 := ofNat8 (by omega)
      have e3 : (UInt8.ofNat M).toNat = M := ofNat8 (by omega)
      have e4 : (UInt8.ofNat S).toNat = S := ofNat8 (by omega)
      have e5 : (UInt32.ofNat U).toNat = U := uint32_toNat_ofNat_of_lt (by omega)
      rw [e1, e2, e3, e4, e5, Nat.div_add_mod']
      exact ⟨Nat.mod_lt _ (by omega), hd, md, sd, f, n1, by omega, hm, n2, hs, n3, n4, rfl⟩
  · rintro ⟨hlt, hd, md, sd, f, n1, l1, hm, n2, hs, n3, n4, rfl⟩
    have l2 := numeral_lt n2
    have l3 := numeral_lt n3
    rw [hm] at l2
    rw [hs] at l3
    rw [timeTextInner_parts hd md sd f (numeral_noColon n1) hm hs, clockParts_eq,
      (btou_iff _ _ _).2 ⟨n1, by omega⟩, (btou_iff _ _ _).2 ⟨n2, by omega⟩, (btou_iff _ _ _).2 ⟨n3, by omega⟩,
      (fracPart_ok _ _ _).2 n4]
    simp only [Out.ofOption_some, Out.ok_bind]
    rw [show (d.toNat * 24 + h.toNat) / 24 = d.toNat by omega, show (d.toNat * 24 + h.toNat) % 24 = h.toNat by omega]
    simp

theorem timeTextInner_panic (value : Bytes) : timeTextInner value = .panic ↔
    ∃ hd md sd r h m s n, Spec.Numeral hd h ∧ h < 2 ^ 32 ∧ md.length = 2 ∧ Spec.Numeral md m ∧ sd.length = 2 ∧
      Spec.Numeral sd s ∧ Spec.Numeral r n ∧ n < 2 ^ 32 ∧ 6 < r.length ∧
      (6 < r.length % 2 ^ 32 ∨ 2 ^ 32 ≤ n * 10 ^ (6 - r.length % 2 ^ 32)) ∧
      value = hd ++ [0x3A] ++ md ++ [0x3A] ++ sd ++ 0x2E :: r := by
  constructor
  · intro hv
    rcases timeTextInner_shape value with ⟨e, he⟩ | ⟨hd, md, sd, f, hh, hm, hs, rfl⟩
    · rw [he] at hv
      cases hv
    · rw [timeTextInner_parts hd md sd f hh hm hs, clockParts_eq] at hv
      cases h1 : btou 4294967295 hd with
      | none => rw [h1] at hv; cases hv
      | some H =>
        cases h2 : btou 255 md with
        | none => rw [h1, h2] at hv; cases hv
        | some M =>
          cases h3 : btou 255 sd with
          | none => rw [h1, h2, h3] at hv; cases hv
          | some S =>
            rw [h1, h2, h3] at hv
            simp only [Out.ofOption_some, Out.ok_bind] at hv
            obtain ⟨n1, l1⟩ := (btou_iff _ _ _).1 h1
            obtain ⟨n2, l2⟩ := (btou_iff _ _ _).1 h2
            obtain ⟨n3, l3⟩ := (btou_iff _ _ _).1 h3
            cases h4 : fracPart (.parse (.invalidValue .time (hd ++ [0x3A] ++ md ++ [0x3A] ++ sd ++ f))) f with
            | ok U => rw [h4] at hv; cases hv
            | err e => rw [h4] at hv; cases hv
            | panic =>
              obtain ⟨r, n, rfl, hn, hlt, hl, hw⟩ := (fracPart_panic _ _).1 h4
              exact ⟨hd, md, sd, r, H, M, S, n, n1, by omega, hm, n2, hs, n3, hn, hlt, hl, hw, rfl⟩
  · rintro ⟨hd, md, sd, r, H, M, S, n, n1, l1, hm, n2, hs, n3, hn, hlt, hl, hw, rfl⟩
    have l2 := numeral_lt n2
    have l3 := numeral_lt n3
    rw [hm] at l2
    rw [hs] at l3
    rw [timeTextInner_parts hd md sd _ (numeral_noColon n1) hm hs, clockParts_eq,
      (btou_iff _ _ _).2 ⟨n1, by omega⟩, (btou_iff _ _ _).2 ⟨n2, by omega⟩, (btou_iff _ _ _).2 ⟨n3, by omega⟩,
      (fracPart_panic _ _).2 ⟨r, n, rfl, hn, hlt, hl, hw⟩]
    rfl

theorem dateTextInner_ok (value : Bytes) (y : UInt16) (m d : UInt8) :
    dateTextInner value = .ok (y, m, d) ↔ Spec.Day value y.toNat m.toNat d.toNat := by
  unfold dateTextInner
  dsimp only
  constructor
  · intro hv
    split at hv
    · cases hv
    · rename_i hc
      have hl : value.length = 10 := Decidable.not_not.1 fun g => hc (Or.inl g)
      have h4 : value[4]? = some 0x2D := Decidable.not_not.1 fun g => hc (Or.inr (Or.inl g))
      have h7 : value[7]? = some 0x2D := Decidable.not_not.1 fun g => hc (Or.inr (Or.inr g))
      obtain ⟨Y, h1, hv⟩ := Out.bind_eq_ok.1 hv
      obtain ⟨M, h2, hv⟩ := Out.bind_eq_ok.1 hv
      obtain ⟨D, h3, hv⟩ := Out.bind_eq_ok.1 hv
      obtain ⟨n1, l1⟩ := (btou_iff _ _ _).1 ((ofOption_iff _ _ _).1 h1)
      obtain ⟨n2, l2⟩ := (btou_iff _ _ _).1 ((ofOption_iff _ _ _).1 h2)
      obtain ⟨n3, l3⟩ := (btou_iff _ _ _).1 ((ofOption_iff _ _ _).1 h3)
      cases hv
      have e1 : (UInt16.ofNat Y).toNat = Y := uint16_toNat_ofNat_of_lt (by omega)
      have e2 : (UInt8.ofNat M).toNat = M := ofNat8 (by omega)
      have e3 : (UInt8.ofNat D).toNat = D := ofNat8 (by omega)
      rw [e1, e2, e3]
      refine ⟨_, _, _, by rw [List.length_take]; omega, n1, by rw [List.length_take, List.length_drop]; omega, n2,
        by rw [List.length_take, List.length_drop]; omega, n3, ?_⟩
      match value, hl, h4, h7 with
      | [a, b, c, d, e, f, g, h, i, j], _, h4, h7 =>
        have : e = 0x2D := by simpa using h4
        subst this
        have : h = 0x2D := by simpa using h7
        subst this
        rfl
  · rintro ⟨yd, md, dd, ly, n1, lm, n2, ld, n3, rfl⟩
    have l1 := numeral_lt n1
    have l2 := numeral_lt n2
    have l3 := numeral_lt n3
    rw [ly] at l1
    rw [lm] at l2
    rw [ld] at l3
    match yd, ly with
    | [a, b, c, d'], _ =>
      match md, lm with
      | [e, f], _ =>
        match dd, ld with
        | [g, h], _ =>
          rw [if_neg (by simp)]
          have t1 : ([a, b, c, d'] ++ [0x2D] ++ [e, f] ++ [0x2D] ++ [g, h]).take 4 = [a, b, c, d'] := rfl
          have t2 : (([a, b, c, d'] ++ [0x2D] ++ [e, f] ++ [0x2D] ++ [g, h]).drop 5).take 2 = [e, f] := rfl
          have t3 : (([a, b, c, d'] ++ [0x2D] ++ [e, f] ++ [0x2D] ++ [g, h]).drop 8).take 2 = [g, h] := rfl
          rw [t1, t2, t3, (btou_iff _ _ _).2 ⟨n1, by omega⟩, (btou_iff _ _ _).2 ⟨n2, by omega⟩,
            (btou_iff _ _ _).2 ⟨n3, by omega⟩]
          simp only [Out.ofOption_some, Out.ok_bind]
          simp

/-! ### values -/

theorem uint_ok {α : Type} (e : ProtocolError) (max : Nat) (f : Nat → α) (g : α → Nat) (c : α → Value)
    (hg : ∀ n ≤ max, g (f n) = n) (hf : ∀ x, f (g x) = x) (hm : ∀ x, g x ≤ max) (bs : Bytes) (v : Value) :
    Out.ofOption e ((btou max bs).map fun n => c (f n)) = .ok v ↔ ∃ x, v = c x ∧ Spec.Numeral bs (g x) := by
  rw [ofOption_iff, Option.map_eq_some_iff]
  simp only [btou_iff]
  constructor
  · rintro ⟨n, ⟨h, hl⟩, rfl⟩
    exact ⟨f n, rfl, by rw [hg n hl]; exact h⟩
  · rintro ⟨x, rfl, h⟩
    exact ⟨g x, ⟨h, hm x⟩, by rw [hf x]⟩

theorem sint_ok {α : Type} (e : ProtocolError) (min max : Nat) (f : Int → α) (g : α → Int) (c : α → Value)
    (hg : ∀ n, -(min : Int) ≤ n → n ≤ max → g (f n) = n) (hf : ∀ x, f (g x) = x)
    (hm : ∀ x, -(min : Int) ≤ g x ∧ g x ≤ max) (bs : Bytes) (v : Value) :
    Out.ofOption e ((btoi min max bs).map fun n => c (f n)) = .ok v ↔ ∃ x, v = c x ∧ Spec.SignedNumeral bs (g x) := by
  rw [ofOption_iff, Option.map_eq_some_iff]
  simp only [btoi_iff]
  constructor
  · rintro ⟨n, ⟨h, hl, hu⟩, rfl⟩
    exact ⟨f n, rfl, by rw [hg n hl hu]; exact h⟩
  · rintro ⟨x, rfl, h⟩
    exact ⟨g x, ⟨h, hm x⟩, by rw [hf x]⟩

theorem float_ok {α : Type} (e : ProtocolError) (f : Str → Option α) (c : α → Value) (bs : Bytes) (v : Value) :
    (Out.ofOption e (fromUtf8 bs) >>= fun s => Out.ofOption e ((f s).map c)) = .ok v ↔
      ∃ x, v = c x ∧ ∃ s, bs = utf8 s ∧ f s = some x := by
  rw [Out.bind_eq_ok]
  simp only [ofOption_iff, Option.map_eq_some_iff]
  constructor
  · rintro ⟨s, h, x, hx, rfl⟩
    exact ⟨x, rfl, s, (utf8_of_fromUtf8 h).symm, hx⟩
  · rintro ⟨x, rfl, s, rfl, hx⟩
    exact ⟨s, fromUtf8_utf8 s, x, hx, rfl⟩

theorem dateText_ok (bs : Bytes) (v : Value) :
    dateText bs = .ok v ↔ ∃ y m d, v = .date y m d ∧ Spec.Day bs y.toNat m.toNat d.toNat := by
  unfold dateText
  rw [Out.bind_eq_ok]
  constructor
  · rintro ⟨⟨y, m, d⟩, h, hv⟩
    cases hv
    exact ⟨y, m, d, rfl, (dateTextInner_ok ..).1 h⟩
  · rintro ⟨y, m, d, rfl, h⟩
    exact ⟨(y, m, d), (dateTextInner_ok ..).2 h, rfl⟩

theorem day_length {bs : Bytes} {y m d : Nat} (h : Spec.Day bs y m d) : bs.length = 10 := by
  obtain ⟨yd, md, dd, h1, _, h2, _, h3, _, rfl⟩ := h
  simp [h1, h2, h3]

theorem datetimeText_ok (bs : Bytes) (v : Value) :
    datetimeText bs = .ok v ↔ ∃ y mo d h m s us, v = .datetime y mo d h m s us ∧ h.toNat < 24 ∧ 19 ≤ bs.length ∧
      ∃ day sep clock days, Spec.Day day y.toNat mo.toNat d.toNat ∧
        Spec.Clock clock (days * 24 + h.toNat) m.toNat s.toNat us.toNat ∧ bs = day ++ [sep] ++ clock := by
  unfold datetimeText
  constructor
  · intro h
    split at h
    · cases h
    rename_i hl
    rw [Out.bind_eq_ok] at h
    obtain ⟨⟨y, mo, d⟩, h1, h⟩ := h
    dsimp only at h
    rw [Out.bind_eq_ok] at h
    obtain ⟨⟨dd, hh, m, s, us⟩, h2, h⟩ := h
    cases h
    have h3 := (timeTextInner_ok ..).1 h2
    refine ⟨y, mo, d, hh, m, s, us, rfl, h3.1, by omega, bs.take 10, bs[10]'(by omega), bs.drop 11, dd.toNat,
      (dateTextInner_ok ..).1 h1, h3.2, ?_⟩
    rw [List.append_assoc, List.singleton_append, ← List.drop_eq_getElem_cons, List.take_append_drop]
  · rintro ⟨y, mo, d, hh, m, s, us, rfl, h1, h2, day, sep, clock, days, h3, h4, rfl⟩
    have hl := day_length h3
    rw [if_neg (by omega)]
    have e1 : (day ++ [sep] ++ clock).take 10 = day := by simp [← hl]
    have e2 : (day ++ [sep] ++ clock).drop 11 = clock := by
      rw [List.append_assoc, show 11 = day.length + 1 by omega, ← List.drop_drop]
      simp
    have hd : days * 24 < 2 ^ 32 := by
      obtain ⟨_, _, _, _, _, h, _⟩ := h4
      omega
    have e3 : (UInt32.ofNat days).toNat = days := by
      rw [UInt32.toNat_ofNat']
      omega
    rw [e1, e2, (dateTextInner_ok ..).2 h3, (timeTextInner_ok clock (UInt32.ofNat days) hh m s us).2 ⟨h1, by rw [e3]; exact h4⟩]
    rfl

theorem clock_head {bs : Bytes} {h m s us : Nat} (hc : Spec.Clock bs h m s us) :
    ∃ b r, bs = b :: r ∧ 48 ≤ b.toNat := by
  obtain ⟨hd, md, sd, f, h1, _, _, _, _, _, _, rfl⟩ := hc
  cases hd with
  | nil => exact absurd rfl h1.1
  | cons b r => exact ⟨b, _, rfl, (numeral_head h1).1⟩

theorem timeText_ok (bs : Bytes) (v : Value) :
    timeText bs = .ok v ↔ ∃ neg days h m s us, v = .time neg days h m s us ∧ h.toNat < 24 ∧
      ∃ clock, Spec.Clock clock (days.toNat * 24 + h.toNat) m.toNat s.toNat us.toNat ∧
        bs = (if neg then [0x2D] else []) ++ clock := by
  constructor
  · intro h
    cases bs with
    | nil => cases h
    | cons b r =>
      unfold timeText at h
      dsimp only at h
      rw [Out.bind_eq_ok] at h
      obtain ⟨⟨dd, hh, m, s, us⟩, h2, h⟩ := h
      cases h
      have h3 := (timeTextInner_ok ..).1 h2
      refine ⟨b == 0x2D, dd, hh, m, s, us, rfl, h3.1, _, h3.2, ?_⟩
      by_cases hb : b = 0x2D
      · subst hb; rfl
      · rw [if_neg hb, if_neg (by simpa using hb)]; rfl
  · rintro ⟨neg, dd, hh, m, s, us, rfl, h1, clock, h2, rfl⟩
    cases neg with
    | true =>
      show timeText (0x2D :: clock) = _
      unfold timeText
      dsimp only
      rw [if_pos rfl, (timeTextInner_ok ..).2 ⟨h1, h2⟩]
      rfl
    | false =>
      obtain ⟨b, r, rfl, hb⟩ := clock_head h2
      have hb' : b ≠ 0x2D := by rintro rfl; exact absurd hb (by decide)
      show timeText (b :: r) = _
      unfold timeText
      dsimp only
      rw [if_neg hb', (timeTextInner_ok ..).2 ⟨h1, h2⟩]
      show Out.ok (Value.time (b == 0x2D) dd hh m s us) = _
      rw [beq_eq_false_iff_ne.2 hb']

theorem int8_ok (bs : Bytes) (v : Value) :
    Out.ofOption invalidData ((btoi 128 127 bs).map fun n => .tiny (Int8.ofInt n)) = .ok v ↔
      ∃ x, v = .tiny x ∧ Spec.SignedNumeral bs x.toInt :=
  sint_ok _ _ _ Int8.ofInt Int8.toInt Value.tiny
    (fun n h1 h2 => Int8.toInt_ofInt_of_le (by simpa using h1) (by simp at h2 ⊢; omega)) (fun x => Int8.ofInt_toInt x)
    (fun x => ⟨by simpa using x.le_toInt, by have := x.toInt_lt; simp at this ⊢; omega⟩) bs v

theorem int16_ok (bs : Bytes) (v : Value) :
    Out.ofOption invalidData ((btoi 32768 32767 bs).map fun n => .short (Int16.ofInt n)) = .ok v ↔
      ∃ x, v = .short x ∧ Spec.SignedNumeral bs x.toInt :=
  sint_ok _ _ _ Int16.ofInt Int16.toInt Value.short
    (fun n h1 h2 => Int16.toInt_ofInt_of_le (by simpa using h1) (by simp at h2 ⊢; omega)) (fun x => Int16.ofInt_toInt x)
    (fun x => ⟨by simpa using x.le_toInt, by have := x.toInt_lt; simp at this ⊢; omega⟩) bs v

theorem int32_ok (bs : Bytes) (v : Value) :
    Out.ofOption invalidData ((btoi 2147483648 2147483647 bs).map fun n => .int (Int32.ofInt n)) = .ok v ↔
      ∃ x, v = .int x ∧ Spec.SignedNumeral bs x.toInt :=
  sint_ok _ _ _ Int32.ofInt Int32.toInt Value.int
    (fun n h1 h2 => Int32.toInt_ofInt_of_le (by simpa using h1) (by simp at h2 ⊢; omega)) (fun x => Int32.ofInt_toInt x)
    (fun x => ⟨by simpa using x.le_toInt, by have := x.toInt_lt; simp at this ⊢; omega⟩) bs v

theorem int64_ok (bs : Bytes) (v : Value) :
    Out.ofOption invalidData ((btoi 9223372036854775808 9223372036854775807 bs).map fun n => .long (Int64.ofInt n)) = .ok v ↔
      ∃ x, v = .long x ∧ Spec.SignedNumeral bs x.toInt :=
  sint_ok _ _ _ Int64.ofInt Int64.toInt Value.long
    (fun n h1 h2 => Int64.toInt_ofInt_of_le (by simpa using h1) (by simp at h2 ⊢; omega)) (fun x => Int64.ofInt_toInt x)
    (fun x => ⟨by simpa using x.le_toInt, by have := x.toInt_lt; simp at this ⊢; omega⟩) bs v

theorem uint8_ok (bs : Bytes) (v : Value) :
    Out.ofOption invalidData ((btou 255 bs).map fun n => .utiny (UInt8.ofNat n)) = .ok v ↔
      ∃ x, v = .utiny x ∧ Spec.Numeral bs x.toNat :=
  uint_ok _ _ UInt8.ofNat UInt8.toNat Value.utiny
    (fun n h => by rw [UInt8.toNat_ofNat']; omega) (fun x => UInt8.ofNat_toNat)
    (fun x => by have := x.toNat_lt; omega) bs v

theorem uint16_ok (bs : Bytes) (v : Value) :
    Out.ofOption invalidData ((btou 65535 bs).map fun n => .ushort (UInt16.ofNat n)) = .ok v ↔
      ∃ x, v = .ushort x ∧ Spec.Numeral bs x.toNat :=
  uint_ok _ _ UInt16.ofNat UInt16.toNat Value.ushort
    (fun n h => by rw [UInt16.toNat_ofNat']; omega) (fun x => UInt16.ofNat_toNat)
    (fun x => by have := x.toNat_lt; omega) bs v

theorem uint32_ok (bs : Bytes) (v : Value) :
    Out.ofOption invalidData ((btou 4294967295 bs).map fun n => .uint (UInt32.ofNat n)) = .ok v ↔
      ∃ x, v = .uint x ∧ Spec.Numeral bs x.toNat :=
  uint_ok _ _ UInt32.ofNat UInt32.toNat Value.uint
    (fun n h => by rw [UInt32.toNat_ofNat']; omega) (fun x => UInt32.ofNat_toNat)
    (fun x => by have := x.toNat_lt; omega) bs v

theorem uint64_ok (bs : Bytes) (v : Value) :
    Out.ofOption invalidData ((btou 18446744073709551615 bs).map fun n => .ulong (UInt64.ofNat n)) = .ok v ↔
      ∃ x, v = .ulong x ∧ Spec.Numeral bs x.toNat :=
  uint_ok _ _ UInt64.ofNat UInt64.toNat Value.ulong
    (fun n h => by rw [UInt64.toNat_ofNat']; omega) (fun x => UInt64.ofNat_toNat)
    (fun x => by have := x.toNat_lt; omega) bs v

/-- Exactly the texts of the specification are accepted, as the values it gives them. -/
theorem C74_value (fp : FloatParse) (t : ColumnType) (flags : UInt16) (bs : Bytes) (v : Value) :
    textValue fp t flags bs = .ok v ↔
      Spec.TextValue fp t.toByte.toNat (hasFlag16 flags ColFlag.UNSIGNED) bs v := by
  unfold textValue
  dsimp only
  generalize hasFlag16 flags ColFlag.UNSIGNED = u
  cases t <;> dsimp only
  case tiny | short | year | long | int24 | longLong =>
    cases u
    · rw [if_neg (by decide)]
      first | rw [int8_ok] | rw [int16_ok] | rw [int32_ok] | rw [int64_ok]
      cases v <;> simp [Spec.TextValue, ColumnType.toByte, Spec.isStringType]
    · rw [if_pos rfl]
      first | rw [uint8_ok] | rw [uint16_ok] | rw [uint32_ok] | rw [uint64_ok]
      cases v <;> simp [Spec.TextValue, ColumnType.toByte, Spec.isStringType]
  case float | double =>
    rw [float_ok]
    cases v <;> simp [Spec.TextValue, ColumnType.toByte, Spec.isStringType]
  case timestamp | datetime =>
    rw [datetimeText_ok]
    cases v <;> simp [Spec.TextValue, ColumnType.toByte, Spec.isStringType]
  case date =>
    rw [dateText_ok]
    cases v <;> simp [Spec.TextValue, ColumnType.toByte, Spec.isStringType]
  case time =>
    rw [timeText_ok]
    cases v <;> simp [Spec.TextValue, ColumnType.toByte, Spec.isStringType]
  all_goals cases v <;> simp [Spec.TextValue, ColumnType.toByte, Spec.isStringType]

theorem datetimeText_panic (bs : Bytes) : datetimeText bs = .panic ↔
    ∃ day sep clock y m d, Spec.Day day y m d ∧ Spec.LongFraction clock ∧ bs = day ++ [sep] ++ clock := by
  unfold datetimeText
  constructor
  · intro h
    split at h
    · cases h
    rename_i hl
    cases h1 : dateTextInner (bs.take 10) with
    | err e => rw [h1] at h; cases h
    | panic =>
      exact absurd (show dateText (bs.take 10) = .panic by unfold dateText; rw [h1]; rfl) (dateText_not_panic _)
    | ok ymd =>
      obtain ⟨y, mo, d⟩ := ymd
      rw [h1, Out.ok_bind] at h
      dsimp only at h
      cases h2 : timeTextInner (bs.drop 11) with
      | err e => rw [h2] at h; cases h
      | ok r => rw [h2] at h; cases h
      | panic =>
        refine ⟨bs.take 10, bs[10]'(by omega), bs.drop 11, _, _, _, (dateTextInner_ok ..).1 h1,
          (timeTextInner_panic _).1 h2, ?_⟩
        rw [List.append_assoc, List.singleton_append, ← List.drop_eq_getElem_cons, List.take_append_drop]
  · rintro ⟨day, sep, clock, y, m, d, h1, h2, rfl⟩
    have hl := day_length h1
    have hc : 8 ≤ clock.length := by
      obtain ⟨hd, md, sd, r, _, _, _, _, _, _, l1, _, l2, _, _, _, l3, _, rfl⟩ := h2
      simp [l1, l2]
      omega
    rw [if_neg (by simp; omega)]
    have e1 : (day ++ [sep] ++ clock).take 10 = day := by simp [← hl]
    have e2 : (day ++ [sep] ++ clock).drop 11 = clock := by
      rw [List.append_assoc, show 11 = day.length + 1 by omega, ← List.drop_drop]
      simp
    have h1' := h1
    obtain ⟨yd, md, dd, ly, n1, lm, n2, ld, n3, _⟩ := h1'
    have b1 := numeral_lt n1
    have b2 := numeral_lt n2
    have b3 := numeral_lt n3
    rw [ly] at b1
    rw [lm] at b2
    rw [ld] at b3
    have c1 : (UInt16.ofNat y).toNat = y := by rw [UInt16.toNat_ofNat']; omega
    have c2 : (UInt8.ofNat m).toNat = m := by rw [UInt8.toNat_ofNat']; omega
    have c3 : (UInt8.ofNat d).toNat = d := by rw [UInt8.toNat_ofNat']; omega
    rw [e1, e2, (dateTextInner_ok day (UInt16.ofNat y) (UInt8.ofNat m) (UInt8.ofNat d)).2 (by rw [c1, c2, c3]; exact h1),
      (timeTextInner_panic clock).2 h2]
    rfl

theorem timeText_panic (bs : Bytes) : timeText bs = .panic ↔
    ∃ clock, Spec.LongFraction clock ∧ (bs = clock ∨ bs = 0x2D :: clock) := by
  have back : ∀ (b : UInt8) (r : Bytes), timeText (b :: r) = .panic ↔
      timeTextInner (if b = 0x2D then r else b :: r) = .panic := by
    intro b r
    unfold timeText
    dsimp only
    cases h : timeTextInner (if b = 0x2D then r else b :: r) with
    | ok x => exact ⟨fun h => (by cases h), fun h => (by cases h)⟩
    | err x => exact ⟨fun h => (by cases h), fun h => (by cases h)⟩
    | panic => exact ⟨fun _ => rfl, fun _ => rfl⟩
  constructor
  · intro h
    cases bs with
    | nil => cases h
    | cons b r =>
      have h := (timeTextInner_panic _).1 ((back b r).1 h)
      refine ⟨_, h, ?_⟩
      by_cases hb : b = 0x2D
      · subst hb; exact Or.inr rfl
      · rw [if_neg hb]; exact Or.inl rfl
  · rintro ⟨clock, h, rfl | rfl⟩
    · have h' := h
      obtain ⟨hd, md, sd, r, _, _, _, _, n1, _, _, _, _, _, _, _, _, _, hc⟩ := h'
      cases hd with
      | nil => exact absurd rfl n1.1
      | cons b rr =>
        have hb : b ≠ 0x2D := by rintro rfl; exact absurd (numeral_head n1).1 (by decide)
        have : ∃ r', bs = b :: r' := ⟨_, hc⟩
        obtain ⟨r', rfl⟩ := this
        refine (back b r').2 ?_
        rw [if_neg hb]
        exact (timeTextInner_panic _).2 h
    · exact (back _ _).2 ((timeTextInner_panic _).2 h)

/-- Exactly which texts end in a panic. -/
theorem C74_panic (fp : FloatParse) (t : ColumnType) (flags : UInt16) (bs : Bytes) :
    textValue fp t flags bs = .panic ↔ Spec.TextPanics t.toByte.toNat bs := by
  by_cases h1 : Spec.noText t = true
  · unfold Spec.TextPanics
    refine ⟨fun _ => Or.inl ?_, fun _ => ?_⟩
    · cases t <;> first | decide | exact absurd h1 (by decide)
    · cases t <;> first | rfl | exact absurd h1 (by decide)
  · by_cases h2 : Spec.hasFraction t = true
    · have hh : t = .timestamp ∨ t = .datetime ∨ t = .time := by
        cases t <;> first | simp; done | exact absurd h2 (by decide)
      rcases hh with rfl | rfl | rfl
      · exact (datetimeText_panic bs).trans (by simp [Spec.TextPanics, ColumnType.toByte])
      · exact (datetimeText_panic bs).trans (by simp [Spec.TextPanics, ColumnType.toByte])
      · exact (timeText_panic bs).trans (by simp [Spec.TextPanics, ColumnType.toByte])
    · refine ⟨fun h => absurd h (textValue_not_panic fp t flags bs (by simpa using h1) (by simpa using h2)), ?_⟩
      rintro (h | h | h)
      · exfalso
        cases t <;> first | exact absurd h (by decide) | exact h1 (by decide)
      · exfalso
        cases t <;> first | exact absurd h.1 (by decide) | exact h2 (by decide)
      · exfalso
        cases t <;> first | exact absurd h.1 (by decide) | exact h2 (by decide)

/-! ### rows -/

theorem intForm_ne_nil {n : Nat} {l : Bytes} (h : Spec.IntForm n l) : l ≠ [] := by
  rintro rfl
  unfold Spec.IntForm at h
  simp at h

theorem intForm_lt {n : Nat} {l : Bytes} (h : Spec.IntForm n l) : n < 2 ^ 64 := by
  unfold Spec.IntForm at h
  omega

theorem intForm_null {n : Nat} {t : Bytes} (h : Spec.IntForm n (0xFB :: t)) : t = [] := by
  unfold Spec.IntForm at h
  rcases h with ⟨h1, h⟩ | ⟨_, h⟩ | ⟨_, h⟩ | ⟨_, h⟩ | ⟨_, h | h⟩
  · injection h
  · injection h with h _; exact absurd h (by decide)
  · injection h with h _; exact absurd h (by decide)
  · injection h with h _; exact absurd h (by decide)
  · injection h
  · injection h with h _

/-- the forms of one cell. -/
def cellForm (fp : FloatParse) (t : Nat × Bool) (v : Value) (b : Bytes) : Prop :=
  (v = .null ∧ b = [0xFB]) ∨
  ∃ l txt, Spec.TextValue fp t.1 t.2 txt v ∧ Spec.IntForm txt.length l ∧ l ≠ [0xFB] ∧ b = l ++ txt

theorem deserializeText_reads (fp : FloatParse) (t : ColumnType) (flags : UInt16) :
    Decodes (deserializeText fp t flags) (cellForm fp (t.toByte.toNat, hasFlag16 flags ColFlag.UNSIGNED)) := by
  intro s v s'
  unfold deserializeText
  rw [SM.bind_of_ok (show SM.get s = (.ok s, s) from rfl)]
  cases s with
  | nil =>
    constructor
    · intro h; cases h
    · rintro ⟨b, h | ⟨l, txt, h1, h2, h3, rfl⟩, hs⟩
      · rw [h.2] at hs; cases hs
      · have := intForm_ne_nil h2
        simp at hs
        exact absurd hs.1 this
  | cons b r =>
    dsimp only
    by_cases hb : b = 0xFB
    · subst hb
      rw [if_pos rfl]
      have e : (P.skip 1 >>= fun _ => (pure Value.null : P Value)) (0xFB :: r) = (.ok .null, r) := rfl
      rw [e]
      constructor
      · intro h
        cases h
        exact ⟨[0xFB], Or.inl ⟨rfl, rfl⟩, rfl⟩
      · rintro ⟨b, ⟨rfl, rfl⟩ | ⟨l, txt, h1, h2, h3, rfl⟩, hs⟩
        · injection hs with _ hs
          subst hs
          rfl
        · exfalso
          cases l with
          | nil => exact intForm_ne_nil h2 rfl
          | cons x l =>
            injection hs with hx _
            subst hx
            exact h3 (by rw [intForm_null h2])
    · rw [if_neg hb]
      have hd := (lenencSlice_reads.bind fun bytes => Decodes.ofOut (textValue fp t flags bytes)) (b :: r) v s'
      rw [hd]
      constructor
      · rintro ⟨_, ⟨y, b1, b2, ⟨l, h1, h2, rfl⟩, ⟨h3, rfl⟩, rfl⟩, hs⟩
        refine ⟨l ++ y, Or.inr ⟨l, y, (C74_value ..).1 h3, h2, ?_, rfl⟩, by rw [hs, List.append_nil]⟩
        rintro rfl
        injection hs with hx _
        exact hb hx
      · rintro ⟨c, ⟨rfl, rfl⟩ | ⟨l, txt, h1, h2, h3, rfl⟩, hs⟩
        · injection hs with hx _
          exact absurd hx hb
        · exact ⟨l ++ txt, ⟨txt, l ++ txt, [], ⟨l, intForm_lt h2, h2, rfl⟩, ⟨(C74_value ..).2 h1, rfl⟩, by simp⟩, hs⟩

theorem textRowLoop_reads (fp : FloatParse) (cols : List Column) :
    Decodes (textRowLoop fp cols) fun vs b => Spec.TextCells fp (cols.map Column.wireType) vs b := by
  induction cols with
  | nil =>
    refine (Decodes.pure' []).of_iff fun vs b => ?_
    constructor
    · rintro ⟨rfl, rfl⟩
      exact .nil
    · intro h
      cases h
      exact ⟨rfl, rfl⟩
  | cons c cols ih =>
    unfold textRowLoop
    refine ((deserializeText_reads fp c.type c.flags).bind fun v => ih.bind fun vs => Decodes.pure' (v :: vs)).of_iff
      fun vs b => ?_
    constructor
    · rintro ⟨v, b1, _, h1, ⟨vs', b2, _, h2, ⟨rfl, rfl⟩, rfl⟩, rfl⟩
      rw [List.append_nil]
      rcases h1 with ⟨rfl, rfl⟩ | ⟨l, txt, h1, h3, h4, rfl⟩
      · exact .null h2
      · exact .cell h1 h3 h4 h2
    · intro h
      cases h with
      | null h => exact ⟨_, [0xFB], _, Or.inl ⟨rfl, rfl⟩, ⟨_, _, [], h, ⟨rfl, rfl⟩, rfl⟩, by simp⟩
      | cell h1 h2 h3 h4 =>
        exact ⟨_, _, _, Or.inr ⟨_, _, h1, h2, h3, rfl⟩, ⟨_, _, [], h4, ⟨rfl, rfl⟩, rfl⟩, by simp⟩

/-- Exactly the packets that begin with a cell for each column are accepted as rows. -/
theorem C74_row (fp : FloatParse) (cols : List Column) (p : Bytes) (vs : List Value) :
    readTextRow fp p cols = .ok vs ↔
      ∃ b rest, Spec.TextCells fp (cols.map Column.wireType) vs b ∧ p = b ++ rest := by
  rw [readTextRow, (textRowLoop_reads fp cols).run]

theorem bind_panic_iff {α β : Type} (p : P α) (f : α → P β) (s : Bytes) : ((p >>= f) s).1 = .panic ↔
    (p s).1 = .panic ∨ ∃ x s', p s = (.ok x, s') ∧ (f x s').1 = .panic := by
  rcases h : p s with ⟨o, s'⟩
  cases o with
  | ok x =>
    rw [SM.bind_of_ok h]
    constructor
    · intro h'
      exact Or.inr ⟨x, s', rfl, h'⟩
    · rintro (h' | ⟨x', s'', h', h2⟩)
      · cases h'
      · cases h'
        exact h2
  | err e =>
    rw [SM.bind_of_err h]
    constructor
    · intro h'; cases h'
    · rintro (h' | ⟨x', s'', h', h2⟩)
      · cases h'
      · cases h'
  | panic =>
    rw [SM.bind_of_panic h]
    exact ⟨fun _ => Or.inl rfl, fun _ => rfl⟩

theorem deserializeText_panic (fp : FloatParse) (t : ColumnType) (flags : UInt16) (s : Bytes) :
    (deserializeText fp t flags s).1 = .panic ↔
      ∃ l txt rest, Spec.IntForm txt.length l ∧ l ≠ [0xFB] ∧ Spec.TextPanics t.toByte.toNat txt ∧
        s = l ++ txt ++ rest := by
  unfold deserializeText
  rw [SM.bind_of_ok (show SM.get s = (.ok s, s) from rfl)]
  cases s with
  | nil =>
    constructor
    · intro h; cases h
    · rintro ⟨l, txt, rest, h, _, _, hs⟩
      simp at hs
      exact absurd hs.1 (intForm_ne_nil h)
  | cons b r =>
    dsimp only
    by_cases hb : b = 0xFB
    · subst hb
      rw [if_pos rfl]
      have e : (P.skip 1 >>= fun _ => (pure Value.null : P Value)) (0xFB :: r) = (.ok .null, r) := rfl
      rw [e]
      constructor
      · intro h; cases h
      · rintro ⟨l, txt, rest, h2, h3, _, hs⟩
        exfalso
        cases l with
        | nil => exact intForm_ne_nil h2 rfl
        | cons x l =>
          injection hs with hx _
          subst hx
          exact h3 (by rw [intForm_null h2])
    · rw [if_neg hb, bind_panic_iff]
      constructor
      · rintro (h | ⟨txt, s', h1, h2⟩)
        · exact absurd h (Lens.checkedEatLenencSlice (b :: r) (Nat.zero_le _)).1
        · obtain ⟨_, ⟨l, _, h3, rfl⟩, hs⟩ := (lenencSlice_reads _ _ _).1 h1
          refine ⟨l, txt, s', h3, ?_, (C74_panic ..).1 (show textValue fp t flags txt = .panic from h2), hs⟩
          rintro rfl
          injection hs with hx _
          exact hb hx
      · rintro ⟨l, txt, rest, h2, _, h3, hs⟩
        exact Or.inr ⟨txt, rest, (lenencSlice_reads _ _ _).2 ⟨l ++ txt, ⟨l, intForm_lt h2, h2, rfl⟩, hs⟩,
          (C74_panic fp t flags txt).2 h3⟩

/-- Exactly which packets end in a panic: some cells, then a text that cannot be decoded without. -/
theorem C74_row_panic (fp : FloatParse) (cols : List Column) (p : Bytes) :
    readTextRow fp p cols = .panic ↔
      ∃ before c after vs b l txt rest, cols = before ++ c :: after ∧
        Spec.TextCells fp (before.map Column.wireType) vs b ∧ Spec.IntForm txt.length l ∧ l ≠ [0xFB] ∧
        Spec.TextPanics c.type.toByte.toNat txt ∧ p = b ++ l ++ txt ++ rest := by
  unfold readTextRow runP
  induction cols generalizing p with
  | nil =>
    constructor
    · intro h; cases h
    · rintro ⟨before, c, after, _, _, _, _, _, h, _⟩
      cases before <;> cases h
  | cons c cols ih =>
    rw [textRowLoop, bind_panic_iff, deserializeText_panic]
    constructor
    · rintro (⟨l, txt, rest, h1, h2, h3, rfl⟩ | ⟨v, s', h1, h2⟩)
      · exact ⟨[], c, cols, [], [], l, txt, rest, rfl, .nil, h1, h2, h3, rfl⟩
      · rw [bind_panic_iff] at h2
        rcases h2 with h2 | ⟨_, _, _, h⟩
        · obtain ⟨before, c', after, vs, b, l, txt, rest, rfl, h3, h4, h5, h6, rfl⟩ := (ih s').1 h2
          obtain ⟨b1, hb1, rfl⟩ := (deserializeText_reads fp c.type c.flags _ _ _).1 h1
          refine ⟨c :: before, c', after, v :: vs, b1 ++ b, l, txt, rest, rfl, ?_, h4, h5, h6, by simp⟩
          rcases hb1 with ⟨rfl, rfl⟩ | ⟨l', txt', g1, g2, g3, rfl⟩
          · exact .null h3
          · exact .cell g1 g2 g3 h3
        · cases h
    · rintro ⟨before, c', after, vs, b, l, txt, rest, hc, h3, h4, h5, h6, rfl⟩
      cases before with
      | nil =>
        cases hc
        cases h3
        exact Or.inl ⟨l, txt, rest, h4, h5, h6, by simp⟩
      | cons c'' before =>
        injection hc with hc1 hc2
        subst hc1
        subst hc2
        right
        have go : ∀ (v : Value) (b1 b2 : Bytes) (vs' : List Value),
            cellForm fp c.wireType v b1 → Spec.TextCells fp (before.map Column.wireType) vs' b2 →
            ∃ x s', deserializeText fp c.type c.flags (b1 ++ b2 ++ l ++ txt ++ rest) = (.ok x, s') ∧
              ((textRowLoop fp (before ++ c' :: after) >>= fun vs => pure (x :: vs)) s').1 = .panic := by
          intro v b1 b2 vs' g1 g2
          refine ⟨v, b2 ++ l ++ txt ++ rest, (deserializeText_reads fp c.type c.flags _ _ _).2 ⟨b1, g1, by simp⟩, ?_⟩
          rw [bind_panic_iff]
          exact Or.inl ((ih _).2 ⟨before, c', after, vs', b2, l, txt, rest, rfl, g2, h4, h5, h6, rfl⟩)
        cases h3 with
        | null h => exact go .null [0xFB] _ _ (Or.inl ⟨rfl, rfl⟩) h
        | cell g1 g2 g3 g4 =>
          exact go _ _ _ _ (Or.inr ⟨_, _, g1, g2, g3, rfl⟩) g4

/-! ### examples -/

def C74ex.col (t : ColumnType) : Column := ⟨[], [], [], [], t, 0⟩

open C74ex in
/-- Beyond what a server prints: signs and zeros, any byte after the seconds, any byte between date and time, hours
past midnight of a DATETIME reduced without a trace, minutes of more than an hour, an empty text with the length 0xFF. -/
theorem C74_example (fp : FloatParse) :
    textValue fp .short 0 (utf8 "+007".toList) = .ok (.short 7) ∧
    textValue fp .time 0 (utf8 "-10:00:00x".toList) = .ok (.time true 0 10 0 0 0) ∧
    textValue fp .time 0 (utf8 "10:99:99.5".toList) = .ok (.time false 0 10 99 99 500000) ∧
    textValue fp .datetime 0 (utf8 "2024-01-01x25:00:00".toList) = .ok (.datetime 2024 1 1 1 0 0 0) ∧
    textValue fp .time 0 (utf8 "10:00:00.0000000".toList) = .panic ∧
    (∃ e, textValue fp .time 0 (utf8 "10:00:00.9999999999".toList) = .err e) ∧
    readTextRow fp [0xFF, 0xFB, 2, 0x31, 0x32, 9] [col .blob, col .tiny, col .tiny] =
      .ok [.bytes [], .null, .tiny 12] := by
  refine ⟨?_, ?_, ?_, ?_, ?_, ⟨.parse (.invalidValue .time (utf8 "10:00:00.9999999999".toList)), ?_⟩, ?_⟩
  all_goals rfl

end Verif

import Verif.Proofs.Display

/-! # C24 — hex text round-trips -/

namespace Verif

/-- the text after an optional prefix `0x` or `0X`. -/
def Spec.hexBody : Str → Str
  | '0' :: 'x' :: r => r
  | '0' :: 'X' :: r => r
  | s => s

theorem hexFromStr_eq (s : Str) : hexFromStr (utf8 s) = hexDecode (utf8 (Spec.hexBody s)) := by
  unfold Spec.hexBody
  split
  · rfl
  · rfl
  · rename_i h1 h2
    unfold hexFromStr
    rw [if_neg]
    have key : ∀ x : Char, x.toNat < 128 → (utf8 s).take 2 = [0x30, UInt8.ofNat x.toNat] →
        ∃ r, s = '0' :: x :: r := by
      intro x hx h
      obtain ⟨t, ht⟩ : ∃ t, utf8 s = utf8 ['0', x] ++ t := by
        refine ⟨(utf8 s).drop 2, ?_⟩
        rw [utf8, utf8, utf8, utf8_ascii x hx, utf8_ascii '0' (by decide)]
        conv => lhs; rw [← List.take_append_drop 2 (utf8 s), h]
        rfl
      -- decode the first two characters
      have d1 : decodeChar (utf8 s) = some ('0', utf8 [x] ++ t) := by
        rw [ht, utf8, List.append_assoc]; exact decodeChar_utf8Char _ _
      cases s with
      | nil => simp [utf8, decodeChar] at d1
      | cons c s =>
        rw [utf8, decodeChar_utf8Char] at d1
        simp only [Option.some.injEq, Prod.mk.injEq] at d1
        obtain ⟨rfl, d2⟩ := d1
        have d3 : decodeChar (utf8 s) = some (x, t) := by
          rw [d2, utf8, utf8, List.append_nil]; exact decodeChar_utf8Char _ _
        cases s with
        | nil => simp [utf8, decodeChar] at d3
        | cons c s =>
          rw [utf8, decodeChar_utf8Char] at d3
          simp only [Option.some.injEq, Prod.mk.injEq] at d3
          exact ⟨s, by rw [d3.1]⟩
    rintro (h | h)
    · obtain ⟨r, hr⟩ := key 'x' (by decide) h
      exact h1 r hr
    · obtain ⟨r, hr⟩ := key 'X' (by decide) h
      exact h2 r hr

/-- Parsing accepts exactly the texts made of an optional prefix and pairs of hexadecimal digits of
either case, and yields the bytes they denote; every other text (an odd number of digits, any other
character) is rejected with an error. -/
theorem C24_from_str_exact (s : Str) :
    (∀ bs, hexFromStr (utf8 s) = .ok bs ↔ Spec.hexBytes (Spec.hexBody s) = some bs) ∧
    hexFromStr (utf8 s) ≠ .panic := by
  rw [hexFromStr_eq]
  exact hexDecode_spec _

/-- The other entry point agrees on every text of at least two bytes.
Missing: shorter texts (`C24_short_violated`). -/
theorem C24_try_from_hex_partial (data : Bytes) (h : 2 ≤ data.length) :
    tryFromHex data = hexFromStr data := by
  unfold tryFromHex hexFromStr
  rw [if_neg (by omega)]

/-- Printed and parsed again by either entry point: the same bytes, for every byte string; also
without the prefix (at least one byte for `try_from_hex`). -/
theorem C24_round_trip (bs : Bytes) :
    hexFromStr (utf8 (hexDisplay bs)) = .ok bs ∧ tryFromHex (utf8 (hexDisplay bs)) = .ok bs ∧
    hexFromStr (utf8 (hexEncode bs)) = .ok bs ∧
    (bs ≠ [] → tryFromHex (utf8 (hexEncode bs)) = .ok bs) := by
  have hb : Spec.hexBody (hexEncode bs) = hexEncode bs := by
    unfold Spec.hexBody
    split
    · rename_i r h
      have := hexEncode_digits bs 'x' (by rw [h]; simp)
      exact absurd this (by decide +kernel)
    · rename_i r h
      have := hexEncode_digits bs 'X' (by rw [h]; simp)
      exact absurd this (by decide +kernel)
    · rfl
  have h1 : hexFromStr (utf8 (hexDisplay bs)) = .ok bs :=
    ((C24_from_str_exact (hexDisplay bs)).1 bs).2 (hexBytes_hexEncode bs)
  have h2 : hexFromStr (utf8 (hexEncode bs)) = .ok bs :=
    ((C24_from_str_exact (hexEncode bs)).1 bs).2 (by rw [hb]; exact hexBytes_hexEncode bs)
  refine ⟨h1, ?_, h2, ?_⟩
  · rw [C24_try_from_hex_partial _ (by simp [hexDisplay, utf8, utf8Char]), h1]
  · intro hne
    rw [C24_try_from_hex_partial, h2]
    have := length_hexEncode bs
    have hl : 0 < bs.length := List.length_pos_iff.2 hne
    have : (utf8 (hexEncode bs)).length = (hexEncode bs).length :=
      (utf8_of_ascii (hexBytes_some (hexBytes_hexEncode bs)).2).2
    omega

/-- `Hex::try_from_hex` on fewer than two bytes panics instead of returning the empty byte string or
an error. -/
theorem C24_short_violated : tryFromHex [] = .panic ∧ tryFromHex [0x61] = .panic ∧
    hexFromStr [] = .ok [] ∧ hexFromStr [0x61] = .err .oddLength := by decide +kernel

theorem hexPairs_no_panic : ∀ (i : Nat) (bs : Bytes), hexPairs i bs ≠ .panic
  | _, [] => by simp [hexPairs]
  | _, [_] => by simp [hexPairs]
  | i, a :: b :: bs => by
    have ih := hexPairs_no_panic (i + 2) bs
    have hv : ∀ (x : UInt8) (j : Nat), hexVal x j ≠ .panic := by
      intro x j
      unfold hexVal
      repeat' split
      all_goals simp
    unfold hexPairs
    cases h1 : hexVal a i with
    | panic => exact absurd h1 (hv _ _)
    | err e => intro h; cases h
    | ok x =>
      cases h2 : hexVal b (i + 1) with
      | panic => exact absurd h2 (hv _ _)
      | err e => intro h; cases h
      | ok y =>
        cases h3 : hexPairs (i + 2) bs with
        | panic => exact absurd h3 ih
        | err e => intro h; cases h
        | ok z => intro h; cases h

theorem hexFromStr_no_panic (data : Bytes) : hexFromStr data ≠ .panic := by
  unfold hexFromStr hexDecode
  repeat' split
  all_goals first | exact hexPairs_no_panic _ _ | simp

/-- these are the only texts on which it panics. -/
theorem C24_exact_partial (data : Bytes) : tryFromHex data = .panic ↔ data.length < 2 := by
  constructor
  · intro h
    refine Nat.lt_of_not_le fun hle => ?_
    rw [C24_try_from_hex_partial data hle] at h
    exact hexFromStr_no_panic data h
  · intro h
    unfold tryFromHex
    rw [if_pos h]

example : hexFromStr (utf8 "0XaBcD".toList) = .ok [0xAB, 0xCD] := by decide +kernel
example : hexFromStr (utf8 "abxd".toList) = .err (.invalidChar 0x78 2) := by decide +kernel

end Verif

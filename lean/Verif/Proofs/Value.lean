import Verif.Model.Stmt
import Verif.Spec.Value
import Verif.Proofs.Wire

/-! Helper lemmas about binary values and NULL bitmaps. -/

namespace Verif

/-! ### Bits -/

theorem bitMask_toNat {k : Nat} (h : k < 8) : ((1 : UInt8) <<< UInt8.ofNat k).toNat = 2 ^ k := by
  have : ∀ k : Fin 8, ((1 : UInt8) <<< UInt8.ofNat k.val).toNat = 2 ^ k.val := by decide
  exact this ⟨k, h⟩

theorem testBit_or_mask (b : UInt8) {k : Nat} (j : Nat) (h : k < 8) :
    (b ||| ((1 : UInt8) <<< UInt8.ofNat k)).toNat.testBit j = (b.toNat.testBit j || decide (k = j)) := by
  rw [UInt8.toNat_or, Nat.testBit_or, bitMask_toNat h, Nat.testBit_two_pow]

theorem testBit_andnot_mask (b : UInt8) {k : Nat} (j : Nat) (h : k < 8) :
    (b &&& ~~~((1 : UInt8) <<< UInt8.ofNat k)).toNat.testBit j
      = (b.toNat.testBit j && !decide (k = j)) := by
  by_cases hj : j < 8
  · have h1 : (~~~((1 : UInt8) <<< UInt8.ofNat k)).toNat.testBit j = !decide (k = j) := by
      have : ∀ k j : Fin 8, (~~~((1 : UInt8) <<< UInt8.ofNat k.val)).toNat.testBit j.val
          = !decide (k.val = j.val) := by decide
      exact this ⟨k, h⟩ ⟨j, hj⟩
    rw [UInt8.toNat_and, Nat.testBit_and, h1]
  · have h2 : b.toNat.testBit j = false := by
      apply Nat.testBit_lt_two_pow
      exact Nat.lt_of_lt_of_le b.toNat_lt (Nat.pow_le_pow_right (by omega) (by omega : 8 ≤ j))
    rw [UInt8.toNat_and, Nat.testBit_and, h2]
    simp

theorem and_mask_ne_zero (b : UInt8) {k : Nat} (h : k < 8) :
    (b &&& ((1 : UInt8) <<< UInt8.ofNat k) != 0) = b.toNat.testBit k := by
  cases hb : b.toNat.testBit k with
  | true =>
    rw [bne_iff_ne]
    intro h0
    have h1 := congrArg (fun x : UInt8 => x.toNat.testBit k) h0
    simp only [UInt8.toNat_and, Nat.testBit_and, hb, bitMask_toNat h, Nat.testBit_two_pow_self] at h1
    simp at h1
  | false =>
    rw [bne_eq_false_iff_eq]
    apply UInt8.toNat_inj.mp
    apply Nat.eq_of_testBit_eq
    intro i
    rw [UInt8.toNat_and, Nat.testBit_and, bitMask_toNat h, Nat.testBit_two_pow]
    by_cases hi : k = i
    · subst hi; simp [hb]
    · simp [hi]

theorem bitSet_eq (bm : Bytes) (i : Nat) :
    Spec.bitSet bm i = match bm[i / 8]? with
      | some b => b.toNat.testBit (i % 8)
      | none => false := by
  unfold Spec.bitSet
  cases bm[i / 8]? with
  | some b => simp only [Nat.testBit_eq_decide_div_mod_eq]; rfl
  | none => rfl

namespace NullBitmap

theorem isNull_eq {ε : Type} (client : Bool) (bm : Bytes) (i : Nat) :
    isNull (ε := ε) client bm i =
      if (i + offset client) / 8 < bm.length then .ok (Spec.bitSet bm (i + offset client))
      else .panic := by
  unfold isNull byteAndBit
  simp only
  split
  · rename_i h
    simp only [Out.ok_bind, List.getElem?_eq_getElem h]
    rw [and_mask_ne_zero _ (Nat.mod_lt _ (by omega)), bitSet_eq, List.getElem?_eq_getElem h]
    rfl
  · rfl

theorem set_eq {ε : Type} (client : Bool) (bm : Bytes) (i : Nat) (v : Bool)
    (h : (i + offset client) / 8 < bm.length) :
    ∃ bm', set (ε := ε) client bm i v = .ok bm' ∧ bm'.length = bm.length ∧
      ∀ j, Spec.bitSet bm' j = if j = i + offset client then v else Spec.bitSet bm j := by
  unfold set byteAndBit
  simp only [if_pos h, Out.ok_bind, List.getElem?_eq_getElem h]
  refine ⟨_, rfl, by simp, ?_⟩
  intro j
  rw [bitSet_eq, bitSet_eq, List.getElem?_set]
  by_cases hj : (i + offset client) / 8 = j / 8
  · rw [if_pos hj, if_pos h]
    have hj' : bm[j / 8]? = some bm[(i + offset client) / 8] := by
      rw [← hj, List.getElem?_eq_getElem h]
    rw [hj']
    simp only
    have hm : (i + offset client) % 8 < 8 := Nat.mod_lt _ (by omega)
    have hiff : (i + offset client) % 8 = j % 8 ↔ j = i + offset client := by omega
    cases v with
    | true =>
      simp only [if_true]
      rw [testBit_or_mask _ _ hm]
      by_cases e : j = i + offset client
      · rw [if_pos e]; simp [hiff.mpr e]
      · rw [if_neg e]; simp [mt hiff.mp e]
    | false =>
      simp only [Bool.false_eq_true, if_false]
      rw [testBit_andnot_mask _ _ hm]
      by_cases e : j = i + offset client
      · rw [if_pos e]; simp [hiff.mpr e]
      · rw [if_neg e]; simp [mt hiff.mp e]
  · rw [if_neg hj, if_neg (by rintro rfl; exact hj rfl)]

theorem bitSet_new (client : Bool) (n j : Nat) : Spec.bitSet (new client n) j = false := by
  rw [bitSet_eq]
  split
  · rename_i b hb
    have : b = 0 := by
      have := List.mem_of_getElem? hb
      exact List.eq_of_mem_replicate this
    subst this
    simp
  · rfl

@[simp] theorem length_new (client : Bool) (n : Nat) : (new client n).length = bitmapLen client n := by
  simp [new]

theorem in_range (client : Bool) {i n : Nat} (h : i < n) :
    (i + offset client) / 8 < bitmapLen client n := by
  unfold bitmapLen offset
  split <;> omega

end NullBitmap
end Verif

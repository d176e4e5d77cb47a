import Verif.Model.Crypt
import Verif.Spec.Rsa
import Mathlib.Tactic.Ring
import Mathlib.Tactic.Linarith
import Mathlib.Tactic.Positivity
import Mathlib.Tactic.NormNum

/-!
# Numbers as big-endian octets
-/

namespace Verif

theorem foldl_be (bs : Bytes) (a : Nat) :
    bs.foldl (fun n b => n * 256 + b.toNat) a = a * 256 ^ bs.length + Spec.os2ip bs := by
  induction bs generalizing a with
  | nil => simp [Spec.os2ip]
  | cons b r ih =>
    rw [List.foldl_cons, ih, Spec.os2ip, List.length_cons]
    ring

theorem beNat_eq_os2ip (bs : Bytes) : beNat bs = Spec.os2ip bs := by
  unfold beNat
  rw [foldl_be]
  simp

theorem os2ip_lt (bs : Bytes) : Spec.os2ip bs < 256 ^ bs.length := by
  induction bs with
  | nil => simp [Spec.os2ip]
  | cons b r ih =>
    rw [Spec.os2ip, List.length_cons, pow_succ]
    have := b.toNat_lt
    nlinarith [Nat.mul_le_mul_right (256 ^ r.length) (show b.toNat ≤ 255 by omega)]

theorem i2osp_os2ip (bs : Bytes) (hi : Nat) :
    Spec.i2osp bs.length (hi * 256 ^ bs.length + Spec.os2ip bs) = bs := by
  induction bs generalizing hi with
  | nil => rfl
  | cons b r ih =>
    rw [List.length_cons, Spec.i2osp, Spec.os2ip]
    have e : hi * 256 ^ (r.length + 1) + (b.toNat * 256 ^ r.length + Spec.os2ip r) =
        (hi * 256 + b.toNat) * 256 ^ r.length + Spec.os2ip r := by ring
    rw [e, ih]
    congr 1
    rw [Nat.add_comm, Nat.add_mul_div_right _ _ (by positivity), Nat.div_eq_of_lt (os2ip_lt r)]
    apply UInt8.toNat_inj.1
    have := b.toNat_lt
    simp only [UInt8.toNat_ofNat']
    omega

theorem os2ip_append (a b : Bytes) :
    Spec.os2ip (a ++ b) = Spec.os2ip a * 256 ^ b.length + Spec.os2ip b := by
  induction a with
  | nil => simp [Spec.os2ip]
  | cons x a ih =>
    rw [List.cons_append, Spec.os2ip, ih, Spec.os2ip, List.length_append]
    ring

theorem os2ip_zeros (k : Nat) : Spec.os2ip (List.replicate k 0) = 0 := by
  induction k with
  | zero => rfl
  | succ k ih => rw [List.replicate_succ, Spec.os2ip, ih]; simp

theorem beBytesLoop_spec (fuel n : Nat) (acc : Bytes) (hf : n ≤ fuel) :
    ∃ bs, beBytesLoop fuel n acc = bs ++ acc ∧ Spec.os2ip bs = n ∧
      ∀ k, n < 256 ^ k → bs.length ≤ k := by
  induction fuel generalizing n acc with
  | zero =>
    refine ⟨[], rfl, ?_, fun k _ => Nat.zero_le k⟩
    simp [Spec.os2ip]; omega
  | succ fuel ih =>
    unfold beBytesLoop
    by_cases h : n = 0
    · rw [if_pos h]
      exact ⟨[], rfl, by simp [Spec.os2ip, h], fun k _ => Nat.zero_le k⟩
    · rw [if_neg h]
      obtain ⟨bs, h1, h2, h3⟩ := ih (n / 256) (UInt8.ofNat (n % 256) :: acc) (by omega)
      refine ⟨bs ++ [UInt8.ofNat (n % 256)], by rw [h1]; simp, ?_, ?_⟩
      · rw [os2ip_append, h2]
        simp only [Spec.os2ip, List.length_cons, List.length_nil, UInt8.toNat_ofNat']
        omega
      · intro k hk
        cases k with
        | zero => simp at hk; omega
        | succ k =>
          have := h3 k (by rw [pow_succ] at hk; omega)
          simp only [List.length_append, List.length_cons, List.length_nil]
          omega

theorem toBytesBe_spec (n : Nat) : Spec.os2ip (toBytesBe n) = n ∧
    ∀ k, 1 ≤ k → n < 256 ^ k → (toBytesBe n).length ≤ k := by
  unfold toBytesBe
  by_cases h : n = 0
  · rw [if_pos h]
    exact ⟨by simp [Spec.os2ip, h], fun k hk _ => hk⟩
  · rw [if_neg h]
    obtain ⟨bs, h1, h2, h3⟩ := beBytesLoop_spec n n [] le_rfl
    rw [h1, List.append_nil]
    exact ⟨h2, fun k _ hk => h3 k hk⟩

theorem lt_pow_octets (n : Nat) : n < 256 ^ Spec.octets n := by
  unfold Spec.octets
  by_cases h : n = 0
  · simp [h]
  · rw [if_neg h]
    have h1 : n < 2 ^ (n.log2 + 1) := Nat.lt_log2_self
    have h2 : 2 ^ (n.log2 + 1) ≤ 2 ^ (8 * (n.log2 / 8 + 1)) :=
      Nat.pow_le_pow_right (by norm_num) (by omega)
    have h3 : (256 : Nat) ^ (n.log2 / 8 + 1) = 2 ^ (8 * (n.log2 / 8 + 1)) := by
      rw [pow_mul]; norm_num
    omega

theorem pow_octets_le {n : Nat} (h : n ≠ 0) : 256 ^ (Spec.octets n - 1) ≤ n := by
  unfold Spec.octets
  rw [if_neg h]
  have h1 : 2 ^ n.log2 ≤ n := Nat.log2_self_le h
  have h2 : 2 ^ (8 * (n.log2 / 8)) ≤ 2 ^ n.log2 := Nat.pow_le_pow_right (by norm_num) (by omega)
  have h3 : (256 : Nat) ^ (n.log2 / 8 + 1 - 1) = 2 ^ (8 * (n.log2 / 8)) := by
    rw [pow_mul]; norm_num
  omega

end Verif

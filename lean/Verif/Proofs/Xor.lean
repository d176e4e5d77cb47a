import Verif.Model.Crypt
import Verif.Spec.Oaep

/-!
# Exclusive or
-/

namespace Verif

theorem xorBytes_eq_xor {a b : Bytes} (h : a.length = b.length) : xorBytes a b = Spec.xor a b := by
  induction a generalizing b with
  | nil =>
    cases b with
    | nil => rfl
    | cons => simp at h
  | cons x a ih =>
    cases b with
    | nil => simp at h
    | cons y b =>
      have : a.length = b.length := by simpa using h
      simp only [xorBytes, Spec.xor, List.zipWith_cons_cons]
      rw [ih this]
      rfl

theorem Spec.xor_cancel {a b : Bytes} (h : a.length = b.length) : Spec.xor (Spec.xor a b) b = a := by
  induction a generalizing b with
  | nil => rfl
  | cons x a ih =>
    cases b with
    | nil => simp at h
    | cons y b =>
      have h' : a.length = b.length := by simpa using h
      have := ih h'
      unfold Spec.xor at *
      simp only [List.zipWith_cons_cons]
      rw [this, UInt8.xor_assoc, UInt8.xor_self, UInt8.xor_zero]

theorem Spec.length_xor {a b : Bytes} (h : a.length = b.length) : (Spec.xor a b).length = a.length := by
  unfold Spec.xor
  simp [h]

end Verif

import Verif.Model.Display
import Verif.Spec.Sql

/-! # C22 — unquoted identifiers contain only allowed characters -/

namespace Verif

theorem unquotedValid_eq : unquotedValid = Spec.isIdentChar := by
  funext c
  rw [Bool.eq_iff_iff]
  have le (a b : Char) : a ≤ b ↔ a.toNat ≤ b.toNat := Iff.rfl
  have eq (a b : Char) : a = b ↔ a.toNat = b.toNat :=
    ⟨fun h => h ▸ rfl, fun h => Char.ext (UInt32.toNat_inj.1 h)⟩
  simp only [unquotedValid, Spec.isIdentChar, Spec.identRanges, List.any_cons, List.any_nil,
    Bool.or_eq_true, Bool.and_eq_true, decide_eq_true_eq, beq_iff_eq, le, eq, Bool.false_eq_true,
    or_false]
  have d0 : '0'.toNat = 48 := rfl
  have d9 : '9'.toNat = 57 := rfl
  have la : 'a'.toNat = 97 := rfl
  have lz : 'z'.toNat = 122 := rfl
  have ua : 'A'.toNat = 65 := rfl
  have uz : 'Z'.toNat = 90 := rfl
  have dl : '$'.toNat = 36 := rfl
  have us : '_'.toNat = 95 := rfl
  rw [d0, d9, la, lz, ua, uz, dl, us]
  omega

theorem C22_only_allowed (s : Str) : ∀ c ∈ unquotedIdentifierEscape s, Spec.isIdentChar c = true := by
  intro c hc
  rw [← unquotedValid_eq]
  exact (List.mem_filter.1 hc).2

/-- The allowed characters of the input, in order, all of them. -/
theorem C22_keeps_allowed (s : Str) :
    unquotedIdentifierEscape s = s.filter Spec.isIdentChar ∧
    (unquotedIdentifierEscape s).Sublist s ∧
    (∀ c ∈ s, Spec.isIdentChar c = true → c ∈ unquotedIdentifierEscape s) :=
  ⟨by rw [unquotedIdentifierEscape, unquotedValid_eq], List.filter_sublist,
    fun _ hc h => List.mem_filter.2 ⟨hc, unquotedValid_eq ▸ h⟩⟩

theorem C22_allowed_unchanged (s : Str) (h : ∀ c ∈ s, Spec.isIdentChar c = true) :
    unquotedIdentifierEscape s = s :=
  List.filter_eq_self.2 (unquotedValid_eq ▸ h)

theorem C22_idempotent (s : Str) :
    unquotedIdentifierEscape (unquotedIdentifierEscape s) = unquotedIdentifierEscape s :=
  C22_allowed_unchanged _ (C22_only_allowed s)

example : unquotedIdentifierEscape "a`b; DROP \"ä\x00".toList = "abDROPä".toList := by decide +kernel

end Verif

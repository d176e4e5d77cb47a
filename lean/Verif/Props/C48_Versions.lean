import Verif.Proofs.Migrator
import Verif.Proofs.SqlTokens
import Verif.Proofs.Display

/-! # C48 — versions are ordered by major, then minor, then patch -/

namespace Verif

/-- `a` comes before `b`. -/
def Spec.before (a b : Version) : Prop :=
  a.major.toNat < b.major.toNat ∨
  a.major.toNat = b.major.toNat ∧ (a.minor.toNat < b.minor.toNat ∨
    a.minor.toNat = b.minor.toNat ∧ a.patch.toNat < b.patch.toNat)

theorem before_rank (a b : Version) : Spec.before a b ↔ Spec.rank a < Spec.rank b := by
  obtain ⟨a0, a1, a2⟩ := a
  obtain ⟨b0, b1, b2⟩ := b
  have := a0.toNat_lt; have := a1.toNat_lt; have := a2.toNat_lt
  have := b0.toNat_lt; have := b1.toNat_lt; have := b2.toNat_lt
  unfold Spec.before Spec.rank
  dsimp only
  omega

/-- the comparison is this order. -/
theorem C48_lexicographic (a b : Version) :
    (a.cmp b = .lt ↔ Spec.before a b) ∧ (a.cmp b = .gt ↔ Spec.before b a) ∧ (a.cmp b = .eq ↔ a = b) := by
  rw [Version.cmp_eq, before_rank, before_rank]
  refine ⟨Nat.compare_eq_lt, Nat.compare_eq_gt, Nat.compare_eq_eq.trans ⟨rank_inj, fun h => by rw [h]⟩⟩

/-- … and `>`, `>=` are those of the comparison. -/
theorem C48_operators (a b : Version) :
    (a.gt b = true ↔ Spec.before b a) ∧ (a.ge b = true ↔ Spec.before b a ∨ a = b) := by
  rw [Version.gt_iff, Version.ge_iff, before_rank]
  simp only [decide_eq_true_eq]
  refine ⟨trivial, ⟨fun h => ?_, ?_⟩⟩
  · rcases Nat.lt_or_eq_of_le h with h | h
    · exact .inl h
    · exact .inr (rank_inj h.symm)
  · rintro (h | rfl)
    · omega
    · exact Nat.le_refl _

/-- it is a total order: exactly one of before, equal, after; transitive. -/
theorem C48_total (a b c : Version) :
    (Spec.before a b ∨ a = b ∨ Spec.before b a) ∧ ¬ Spec.before a a ∧
    (Spec.before a b → ¬ Spec.before b a) ∧ (Spec.before a b → Spec.before b c → Spec.before a c) := by
  simp only [before_rank]
  refine ⟨?_, by omega, by omega, by omega⟩
  rcases Nat.lt_trichotomy (Spec.rank a) (Spec.rank b) with h | h | h
  · exact .inl h
  · exact .inr (.inl (rank_inj h))
  · exact .inr (.inr h)

theorem orderedFrom_iff (a : MigList) (r : List MigList) :
    orderedFrom a r = true ↔ (a :: r).Pairwise fun x y => Spec.rank x.version < Spec.rank y.version := by
  induction r generalizing a with
  | nil => simp [orderedFrom]
  | cons b r ih =>
    rw [orderedFrom, Version.ge_iff]
    by_cases h : Spec.rank b.version ≤ Spec.rank a.version
    · rw [if_pos (by simpa using h)]
      simp only [Bool.false_eq_true, false_iff, List.pairwise_cons]
      intro hh
      have := hh.1 b (List.mem_cons_self ..)
      omega
    · rw [if_neg (by simpa using h), ih, List.pairwise_cons (a := a)]
      constructor
      · intro hh
        refine ⟨fun y hy => ?_, hh⟩
        rcases List.mem_cons.1 hy with rfl | hy
        · omega
        · have := (List.pairwise_cons.1 hh).1 y hy
          omega
      · exact fun hh => hh.2

/-- The check of the list of migrations accepts exactly those with strictly increasing versions. -/
theorem C48_ordered (ms : List MigList) :
    ordered ms = true ↔ ms.Pairwise fun x y => Spec.before x.version y.version := by
  simp only [before_rank]
  cases ms with
  | nil => simp [ordered]
  | cons a r => exact orderedFrom_iff a r

theorem digits_end {x y r s : Str} {a b : Char} (hx : AllDigits x) (hy : AllDigits y) (ha : a.toNat < 48)
    (hb : b.toNat < 48) (h : x ++ a :: r = y ++ b :: s) : x = y ∧ r = s := by
  induction x generalizing y with
  | nil =>
    cases y with
    | nil => simp at h; exact ⟨rfl, h.2⟩
    | cons c y =>
      rw [List.nil_append, List.cons_append] at h
      injection h with h1 h2
      have := hy c (by simp)
      rw [← h1] at this
      omega
  | cons d x ih =>
    cases y with
    | nil =>
      rw [List.nil_append, List.cons_append] at h
      injection h with h1 h2
      have := hx d (by simp)
      rw [h1] at this
      omega
    | cons c y =>
      rw [List.cons_append, List.cons_append] at h
      injection h with h1 h2
      obtain ⟨h3, h4⟩ := ih (fun z hz => hx z (by simp [hz])) (fun z hz => hy z (by simp [hz])) h2
      exact ⟨by rw [h1, h3], h4⟩

/-- Different versions are displayed differently. -/
theorem C48_display (a b : Version) : a.display = b.display ↔ a = b := by
  refine ⟨fun h => ?_, fun h => by rw [h]⟩
  unfold Version.display at h
  simp only [List.append_assoc, List.cons_append] at h
  injection h with _ h
  have num : ∀ x y : UInt16, decStr x.toNat = decStr y.toNat → x = y := by
    intro x y h
    have e := congrArg Spec.numVal h
    rw [(numVal_decStr _).1, (numVal_decStr _).1] at e
    exact UInt16.toNat_inj.1 e
  have dig := allDigits_decStr
  obtain ⟨h1, h⟩ := digits_end (dig _) (dig _) (by decide) (by decide) h
  obtain ⟨h2, h⟩ := digits_end (dig _) (dig _) (by decide) (by decide) h
  obtain ⟨h3, h⟩ := digits_end (dig _) (dig _) (by decide) (by decide) h
  cases a
  cases b
  simp only [Version.mk.injEq]
  exact ⟨num _ _ h1, num _ _ h2, num _ _ h3⟩

example : (⟨1, 10, 0⟩ : Version).display = "(1.10.0)".toList := by decide +kernel
example : (⟨1, 10, 0⟩ : Version).cmp ⟨1, 9, 65535⟩ = .gt := by decide
example : ordered [⟨⟨0, 9, 9⟩, []⟩, ⟨⟨1, 0, 0⟩, []⟩, ⟨⟨1, 0, 1⟩, []⟩] = true ∧
    ordered [⟨⟨1, 0, 0⟩, []⟩, ⟨⟨1, 0, 0⟩, []⟩] = false ∧
    ordered [⟨⟨1, 0, 0⟩, []⟩, ⟨⟨2, 0, 0⟩, []⟩, ⟨⟨1, 5, 0⟩, []⟩] = false := by decide +kernel

end Verif

import Verif.Proofs.Io
import Verif.Model.Auth

/-!
# Absence of panics

`Lens n p m`: run on at least `n` bytes, `p` does not panic and leaves at least `m` bytes if it
succeeds.  The unchecked reads need enough bytes, the length checks provide them.
-/

namespace Verif

def Lens {α : Type} (n : Nat) (p : P α) (m : Nat) : Prop :=
  ∀ s : Bytes, n ≤ s.length → (p s).1 ≠ .panic ∧ ∀ a s', p s = (.ok a, s') → m ≤ s'.length

namespace Lens

variable {α β : Type} {n m k : Nat}

theorem pure (a : α) (h : m ≤ n) : Lens n (Pure.pure a : P α) m := by
  intro s hs
  refine ⟨(by intro h; cases h), ?_⟩
  rintro _ _ ⟨⟩; omega

theorem fail (e : ProtocolError) : Lens n (SM.fail e : P α) m :=
  fun _ _ => ⟨(by intro h; cases h), (by rintro _ _ ⟨⟩)⟩

theorem get (h : m ≤ n) : Lens n (SM.get : P Bytes) m := by
  intro s hs
  refine ⟨(by intro h; cases h), ?_⟩
  rintro _ _ ⟨⟩; omega

theorem bind {p : P α} {f : α → P β} (hp : Lens n p m) (hf : ∀ a, Lens m (f a) k) :
    Lens n (p >>= f) k := by
  intro s hs
  obtain ⟨h1, h2⟩ := hp s hs
  rw [SM.bind_apply]
  match e : p s with
  | (.ok a, s') => exact hf a s' (h2 a s' e)
  | (.err _, s') => exact ⟨(by intro h; cases h), (by rintro _ _ ⟨⟩)⟩
  | (.panic, s') => rw [e] at h1; exact absurd rfl h1

theorem ite {c : Prop} [Decidable c] {p q : P α} (hp : Lens n p m) (hq : Lens n q m) :
    Lens n (if c then p else q) m := by
  split <;> assumption

theorem ofOut {o : Out ProtocolError α} (ho : o ≠ .panic) (h : m ≤ n) :
    Lens n (SM.ofOut o : P α) m := by
  intro s hs
  cases o with
  | ok a =>
    refine ⟨(by intro h; cases h), ?_⟩
    rintro _ _ ⟨⟩; omega
  | err e => exact ⟨(by intro h; cases h), (by rintro _ _ ⟨⟩)⟩
  | panic => exact absurd rfl ho

theorem skip (j : Nat) (h : m + j ≤ n) : Lens n (P.skip j) m := by
  intro s hs
  refine ⟨(by intro h; cases h), ?_⟩
  rintro _ _ ⟨⟩
  dsimp only
  rw [List.length_drop]; omega

theorem checkLen (j : Nat) (h : m ≤ max n j) : Lens n (P.checkLen j) m := by
  intro s hs
  unfold P.checkLen
  split
  · exact ⟨(by intro h; cases h), (by rintro _ _ ⟨⟩)⟩
  · refine ⟨(by intro h; cases h), ?_⟩
    rintro _ _ ⟨⟩; omega

theorem eat (j : Nat) (h : m + j ≤ n) : Lens n (P.eat j) m := by
  intro s hs
  unfold P.eat
  rw [if_pos (by omega)]
  refine ⟨(by intro h; cases h), ?_⟩
  rintro _ _ ⟨⟩
  rw [List.length_drop]; omega

theorem checkedEat (j : Nat) (h : m + j ≤ n ∨ m = 0) : Lens n (P.checkedEat j) m := by
  intro s hs
  unfold P.checkedEat P.eat
  split
  · refine ⟨(by intro h; cases h), ?_⟩
    rintro _ _ ⟨⟩
    rw [List.length_drop]; omega
  · exact ⟨(by intro h; cases h), (by rintro _ _ ⟨⟩)⟩

theorem eatAll : Lens n P.eatAll 0 := fun _ _ => ⟨(by intro h; cases h), fun _ _ _ => Nat.zero_le _⟩

theorem eatNullSlice : Lens n P.eatNullSlice 0 := by
  intro s _
  refine ⟨?_, fun _ _ _ => Nat.zero_le _⟩
  unfold P.eatNullSlice
  dsimp only
  split <;> (intro h; cases h)

theorem eatU8 (h : m + 1 ≤ n) : Lens n P.eatU8 m :=
  bind (bind (eat 1 h) fun _ => pure _ (Nat.le_refl _)) fun _ => pure _ (Nat.le_refl _)
theorem eatU16 (h : m + 2 ≤ n) : Lens n P.eatU16 m :=
  bind (bind (eat 2 h) fun _ => pure _ (Nat.le_refl _)) fun _ => pure _ (Nat.le_refl _)
theorem eatU24 (h : m + 3 ≤ n) : Lens n P.eatU24 m :=
  bind (bind (eat 3 h) fun _ => pure _ (Nat.le_refl _)) fun _ => pure _ (Nat.le_refl _)
theorem eatU32 (h : m + 4 ≤ n) : Lens n P.eatU32 m :=
  bind (bind (eat 4 h) fun _ => pure _ (Nat.le_refl _)) fun _ => pure _ (Nat.le_refl _)
theorem checkedEatU8 : Lens n P.checkedEatU8 0 :=
  bind (bind (checkedEat 1 (.inr rfl)) fun _ => pure _ (Nat.le_refl _)) fun _ => pure _ (Nat.le_refl _)
theorem checkedEatU16 : Lens n P.checkedEatU16 0 :=
  bind (bind (checkedEat 2 (.inr rfl)) fun _ => pure _ (Nat.le_refl _)) fun _ => pure _ (Nat.le_refl _)
theorem checkedEatU24 : Lens n P.checkedEatU24 0 :=
  bind (bind (checkedEat 3 (.inr rfl)) fun _ => pure _ (Nat.le_refl _)) fun _ => pure _ (Nat.le_refl _)
theorem checkedEatU32 : Lens n P.checkedEatU32 0 :=
  bind (bind (checkedEat 4 (.inr rfl)) fun _ => pure _ (Nat.le_refl _)) fun _ => pure _ (Nat.le_refl _)
theorem checkedEatU64 : Lens n P.checkedEatU64 0 :=
  bind (bind (checkedEat 8 (.inr rfl)) fun _ => pure _ (Nat.le_refl _)) fun _ => pure _ (Nat.le_refl _)

theorem weaken {p : P α} (h : Lens k p m) (hk : k ≤ n) : Lens n p m := fun s hs => h s (by omega)

theorem checkedEatLenencInt : Lens n P.checkedEatLenencInt 0 :=
  bind checkedEatU8 fun _ => ite (pure _ (Nat.le_refl _)) (ite (bind checkedEatU16 fun _ => pure _ (Nat.le_refl _))
    (ite (bind checkedEatU24 fun _ => pure _ (Nat.le_refl _)) (ite checkedEatU64 (pure _ (Nat.le_refl _)))))

theorem checkedEatLenencSlice : Lens n P.checkedEatLenencSlice 0 :=
  bind checkedEatLenencInt fun _ => checkedEat _ (.inr rfl)

theorem checkedEatU8Slice : Lens n P.checkedEatU8Slice 0 :=
  bind checkedEatU8 fun _ => checkedEat _ (.inr rfl)

theorem checkedEatLenencStr : Lens n P.checkedEatLenencStr 0 :=
  bind checkedEatLenencSlice fun a => by
    show Lens 0 (match fromUtf8 a with | some x => Pure.pure x | none => SM.fail _) 0
    cases fromUtf8 a with
    | some x => exact pure _ (Nat.le_refl _)
    | none => exact fail _

theorem checkedEatU8Str : Lens n P.checkedEatU8Str 0 :=
  bind checkedEatU8Slice fun a => by
    show Lens 0 (match fromUtf8 a with | some x => Pure.pure x | none => SM.fail _) 0
    cases fromUtf8 a with
    | some x => exact pure _ (Nat.le_refl _)
    | none => exact fail _

theorem attempt {p : P α} (h : Lens n p m) : Lens n (SM.attempt p) 0 := by
  intro s hs
  refine ⟨?_, fun _ _ _ => Nat.zero_le _⟩
  have := (h s hs).1
  unfold SM.attempt
  match e : p s with
  | (.ok a, s') => intro h; cases h
  | (.err _, s') => intro h; cases h
  | (.panic, s') => rw [e] at this; exact absurd rfl this

theorem ignore {p : P α} (h : Lens n p m) : Lens n (SM.ignore p) 0 := by
  intro s hs
  refine ⟨?_, fun _ _ _ => Nat.zero_le _⟩
  have := (h s hs).1
  unfold SM.ignore
  match e : p s with
  | (.ok a, s') => intro h; cases h
  | (.err _, s') => intro h; cases h
  | (.panic, s') => rw [e] at this; exact absurd rfl this

theorem run {p : P α} (h : Lens 0 p m) (bs : Bytes) : runP p bs ≠ .panic := (h bs (Nat.zero_le _)).1

end Lens
end Verif

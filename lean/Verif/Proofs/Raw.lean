import Verif.Model.Raw

/-!
# Memory and byte lists
-/

namespace Verif

/-- the slice lies in the memory. -/
def View.Within (mem : Bytes) (v : View) : Prop := v.off + v.len ≤ mem.length

/-- the outcomes are alike; values are related by `R`. -/
def OutRel {α β : Type} (R : α → β → Prop) : Out ProtocolError α → Out ProtocolError β → Prop
  | .ok a, .ok b => R a b
  | .err e, .err e' => e = e'
  | .panic, .panic => True
  | _, _ => False

/-- in memory `r` is always defined and does what `p` does on the bytes that the slice shows: same outcome, and what is
left is shown by the slice that is left, which is a rear part of the one before. -/
def Refines {α β : Type} (R : Bytes → α → β → Prop) (r : RawM α) (p : P β) : Prop :=
  ∀ mem v, v.Within mem → ∃ x v', r mem v = (.defined x, v') ∧
    v.off ≤ v'.off ∧ v'.off + v'.len = v.off + v.len ∧
    (p (v.bytes mem)).2 = v'.bytes mem ∧ OutRel (R mem) x (p (v.bytes mem)).1

/-- the same value. -/
def Same {α : Type} (_ : Bytes) (a b : α) : Prop := a = b

/-- a slice and what it shows. -/
def RawShows (mem : Bytes) (s : View) (b : Bytes) : Prop := s.Within mem ∧ s.bytes mem = b

theorem View.bytes_length {mem : Bytes} {v : View} (h : v.Within mem) : (v.bytes mem).length = v.len := by
  unfold View.bytes
  unfold View.Within at h
  rw [List.length_take, List.length_drop]
  omega

theorem View.take_bytes {mem : Bytes} {v : View} (n : Nat) (h : n ≤ v.len) :
    (v.bytes mem).take n = (mem.drop v.off).take n := by
  unfold View.bytes
  rw [List.take_take, Nat.min_eq_left h]

theorem View.drop_bytes {mem : Bytes} {v : View} (n : Nat) (h : n ≤ v.len) :
    (v.bytes mem).drop n = View.bytes mem ⟨v.off + n, v.len - n⟩ := by
  unfold View.bytes
  rw [List.drop_take, List.drop_drop]

theorem Refines.pure {α β : Type} {R : Bytes → α → β → Prop} {a : α} {b : β} (h : ∀ mem, R mem a b) :
    Refines R (Pure.pure a) (Pure.pure b) :=
  fun mem v _ => ⟨.ok a, v, rfl, Nat.le_refl _, rfl, rfl, h mem⟩

theorem Refines.fail {α β : Type} {R : Bytes → α → β → Prop} (e : ProtocolError) :
    Refines R (RawM.fail e) (SM.fail e) :=
  fun _ v _ => ⟨.err e, v, rfl, Nat.le_refl _, rfl, rfl, rfl⟩

theorem RawM.bind_of {α β : Type} {m : RawM α} {f : α → RawM β} {mem : Bytes} {v v' : View} {a : α}
    (h : m mem v = (.defined (.ok a), v')) : (m >>= f) mem v = f a mem v' := by
  show (match m mem v with
    | (.defined (.ok a), v') => f a mem v'
    | (.defined (.err e), v') => (.defined (.err e), v')
    | (.defined .panic, v') => (.defined .panic, v')
    | (.undefined, v') => (.undefined, v')) = _
  rw [h]

theorem RawM.bind_pure {α : Type} (m : RawM α) : (m >>= fun a => Pure.pure a) = m := by
  funext mem v
  show (match m mem v with
    | (.defined (.ok a), v') => ((.defined (.ok a), v') : Raw ProtocolError α × View)
    | (.defined (.err e), v') => (.defined (.err e), v')
    | (.defined .panic, v') => (.defined .panic, v')
    | (.undefined, v') => (.undefined, v')) = _
  rcases m mem v with ⟨o, v'⟩
  rcases o with x | _
  · cases x <;> rfl
  · rfl

/-- sequencing, with what is known about the memory and the slice that the first part leaves. -/
theorem Refines.bind {α β γ δ : Type} {R : Bytes → α → β → Prop} {S : Bytes → γ → δ → Prop} {r : RawM α} {p : P β}
    {f : α → RawM γ} {g : β → P δ} (h : Refines R r p)
    (k : ∀ mem a b, R mem a b → ∀ v, v.Within mem → ∃ x v', f a mem v = (.defined x, v') ∧
      v.off ≤ v'.off ∧ v'.off + v'.len = v.off + v.len ∧
      (g b (v.bytes mem)).2 = v'.bytes mem ∧ OutRel (S mem) x (g b (v.bytes mem)).1) :
    Refines S (r >>= f) (p >>= g) := by
  intro mem v hv
  obtain ⟨x, v1, e, h1, h2, h3, h4⟩ := h mem v hv
  rcases hp : p (v.bytes mem) with ⟨o, rest⟩
  rw [hp] at h3 h4
  obtain rfl : rest = v1.bytes mem := h3
  replace h3 : v1.bytes mem = v1.bytes mem := rfl
  have hv1 : v1.Within mem := by unfold View.Within at *; omega
  cases x with
  | ok a =>
    cases o with
    | ok b =>
      obtain ⟨y, v2, e2, k1, k2, k3, k4⟩ := k mem a b h4 v1 hv1
      refine ⟨y, v2, (RawM.bind_of e).trans e2, by omega, by omega, ?_, ?_⟩
      · rw [SM.bind_of_ok hp]; exact k3
      · rw [SM.bind_of_ok hp]; exact k4
    | err e' => exact h4.elim
    | panic => exact h4.elim
  | err e' =>
    cases o with
    | ok b => exact h4.elim
    | err e2 =>
      have h4 : e' = e2 := h4
      subst h4
      refine ⟨.err e', v1, ?_, h1, h2, ?_, ?_⟩
      · show (match r mem v with
          | (.defined (.ok a), v') => f a mem v'
          | (.defined (.err e), v') => (.defined (.err e), v')
          | (.defined .panic, v') => (.defined .panic, v')
          | (.undefined, v') => (.undefined, v')) = _
        rw [e]
      · rw [SM.bind_of_err hp]
      · rw [SM.bind_of_err hp]; exact rfl
    | panic => exact h4.elim
  | panic =>
    cases o with
    | ok b => exact h4.elim
    | err e2 => exact h4.elim
    | panic =>
      refine ⟨.panic, v1, ?_, h1, h2, ?_, ?_⟩
      · show (match r mem v with
          | (.defined (.ok a), v') => f a mem v'
          | (.defined (.err e), v') => (.defined (.err e), v')
          | (.defined .panic, v') => (.defined .panic, v')
          | (.undefined, v') => (.undefined, v')) = _
        rw [e]
      · rw [SM.bind_of_panic hp]
      · rw [SM.bind_of_panic hp]; exact trivial

/-- sequencing where the second part needs to know only the value. -/
theorem Refines.bind' {α γ δ : Type} {S : Bytes → γ → δ → Prop} {r : RawM α} {p : P α}
    {f : α → RawM γ} {g : α → P δ} (h : Refines Same r p) (k : ∀ a, Refines S (f a) (g a)) :
    Refines S (r >>= f) (p >>= g) :=
  h.bind fun mem a b hab v hv => by
    have hab : a = b := hab
    subst hab
    exact k a mem v hv

theorem Refines.eat (n : Nat) : Refines (fun mem s b => RawShows mem s b ∧ s.len = n) (RawM.eat n) (P.eat n) := by
  intro mem v hv
  have hl := View.bytes_length hv
  unfold RawM.eat P.eat
  rw [hl]
  by_cases h : n ≤ v.len
  · rw [if_pos h, if_pos h]
    refine ⟨_, _, rfl, Nat.le_add_right _ _, ?_, View.drop_bytes n h, ⟨?_, ?_⟩, rfl⟩
    · show v.off + n + (v.len - n) = v.off + v.len; omega
    · unfold View.Within at *; show v.off + n ≤ _; omega
    · rw [View.take_bytes n h]; rfl
  · rw [if_neg h, if_neg h]
    exact ⟨_, _, rfl, Nat.le_refl _, rfl, rfl, trivial⟩

theorem Refines.checkedEat (n : Nat) :
    Refines (fun mem s b => RawShows mem s b ∧ s.len = n) (RawM.checkedEat n) (P.checkedEat n) := by
  intro mem v hv
  have hl := View.bytes_length hv
  unfold RawM.checkedEat P.checkedEat
  rw [hl]
  by_cases h : n ≤ v.len
  · rw [if_pos h, if_pos h]
    exact Refines.eat n mem v hv
  · rw [if_neg h, if_neg h]
    exact ⟨_, _, rfl, Nat.le_refl _, rfl, rfl, rfl⟩

theorem Refines.eatAll : Refines RawShows RawM.eatAll P.eatAll := by
  intro mem v hv
  refine ⟨_, _, rfl, Nat.le_add_right _ _, rfl, ?_, hv, rfl⟩
  show [] = View.bytes mem ⟨v.off + v.len, 0⟩
  unfold View.bytes
  simp

/-- reading the array is defined exactly if the slice is long enough. -/
theorem RawM.array_defined (n : Nat) (s : View) (mem : Bytes) (v : View) :
    (RawM.array n s mem v).1 ≠ .undefined ↔ n ≤ s.len := by
  unfold RawM.array
  by_cases h : n ≤ s.len
  · rw [if_pos h]
    exact ⟨fun _ => h, fun _ e => by cases e⟩
  · rw [if_neg h]
    exact ⟨fun e => absurd rfl e, fun e => absurd e h⟩

theorem RawM.array_shows {n : Nat} {s : View} {mem b : Bytes} (h : RawShows mem s b) (hn : s.len = n) (v : View) :
    RawM.array n s mem v = (.defined (.ok b), v) := by
  unfold RawM.array
  subst hn
  rw [if_pos (Nat.le_refl _), ← h.2]
  rfl

theorem RawM.load_shows {s : View} {mem b : Bytes} (h : RawShows mem s b) (v : View) :
    RawM.load s mem v = (.defined (.ok b), v) := by
  unfold RawM.load
  rw [h.2]

/-- eating and reading the array, followed by anything. -/
theorem Refines.eatArray {γ δ : Type} {S : Bytes → γ → δ → Prop} (n : Nat) {f : Bytes → RawM γ} {g : Bytes → P δ}
    (k : ∀ b, Refines S (f b) (g b)) :
    Refines S (RawM.eat n >>= fun s => RawM.array n s >>= f) (P.eat n >>= g) :=
  (Refines.eat n).bind fun mem s b h v hv => by
    rw [RawM.bind_of (RawM.array_shows h.1 h.2 v)]
    exact k b mem v hv

theorem Refines.checkedEatArray {γ δ : Type} {S : Bytes → γ → δ → Prop} (n : Nat) {f : Bytes → RawM γ} {g : Bytes → P δ}
    (k : ∀ b, Refines S (f b) (g b)) :
    Refines S (RawM.checkedEat n >>= fun s => RawM.array n s >>= f) (P.checkedEat n >>= g) :=
  (Refines.checkedEat n).bind fun mem s b h v hv => by
    rw [RawM.bind_of (RawM.array_shows h.1 h.2 v)]
    exact k b mem v hv

theorem leNat_zeros (b : Bytes) (k : Nat) : leNat (b ++ List.replicate k 0) = leNat b := by
  induction b with
  | nil =>
    induction k with
    | zero => rfl
    | succ k ih =>
      have ih : leNat (List.replicate k 0) = 0 := ih
      show leNat (List.replicate (k + 1) 0) = 0
      simp [List.replicate_succ, leNat, ih]
  | cons a b ih => simp [leNat, ih]

end Verif

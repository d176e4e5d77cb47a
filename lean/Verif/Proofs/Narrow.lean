import Verif.Model.Narrow
import Verif.Spec.Narrow
import Verif.Props.C35_Pem
import Verif.Props.C76_Streams

/-!
# What is the same on targets with addresses of 32 and of 64 bits
-/

namespace Verif.Narrow

open Spec (Short Tame Wide OkAlike SetAlike)

/-- `m` leaves a state with `I`, if it succeeds. -/
def Keeps {σ ε α : Type} (I : σ → Prop) (m : SM σ ε α) : Prop := ∀ s a s', I s → m s = (.ok a, s') → I s'

/-- whenever `m` succeeds with a result that is not excused by `E`, so does `m'` with a related one, and both leave the
same state. -/
def Alike {σ ε α : Type} (I : σ → Prop) (E : α → Prop) (R : α → α → Prop) (m m' : SM σ ε α) : Prop :=
  ∀ s a s', I s → m s = (.ok a, s') → E a ∨ (I s' ∧ ∃ a', m' s = (.ok a', s') ∧ R a a')

/-- nothing is excused. -/
abbrev never {α : Type} : α → Prop := fun _ => False

section
variable {σ ε α β : Type} {I : σ → Prop}

theorem Keeps.pure (a : α) : Keeps I (Pure.pure a : SM σ ε α) := by rintro s _ _ h ⟨⟩; exact h
theorem Keeps.fail (e : ε) : Keeps I (SM.fail e : SM σ ε α) := by rintro s _ _ h ⟨⟩
theorem Keeps.crash : Keeps I (SM.crash : SM σ ε α) := by rintro s _ _ h ⟨⟩
theorem Keeps.get : Keeps I (SM.get : SM σ ε σ) := by rintro s _ _ h ⟨⟩; exact h
theorem Keeps.modify {f : σ → σ} (hf : ∀ s, I s → I (f s)) : Keeps I (SM.modify f : SM σ ε Unit) := by
  rintro s _ _ h ⟨⟩
  exact hf s h
theorem Keeps.ofOut (x : Out ε α) : Keeps I (SM.ofOut x : SM σ ε α) := by
  intro s a s' h e
  have := congrArg Prod.snd e
  exact (show s = s' from this) ▸ h
theorem Keeps.bind {m : SM σ ε α} {f : α → SM σ ε β} (h : Keeps I m) (hf : ∀ a, Keeps I (f a)) : Keeps I (m >>= f) := by
  intro s b s'' hs e
  obtain ⟨a, s', h1, h2⟩ := SM.bind_eq_ok.1 e
  exact hf a s' b s'' (h s a s' hs h1) h2
theorem Keeps.ite {c : Prop} [Decidable c] {m m' : SM σ ε α} (h : Keeps I m) (h' : Keeps I m') :
    Keeps I (if c then m else m') := by
  split <;> assumption

theorem Alike.same {m : SM σ ε α} {E : α → Prop} (h : Keeps I m) : Alike I E Eq m m := fun s a s' hs e =>
  .inr ⟨h s a s' hs e, a, e, rfl⟩

theorem Alike.mono {m m' : SM σ ε α} {E F : α → Prop} {R S : α → α → Prop} (h : Alike I E R m m') (hE : ∀ a, E a → F a)
    (hR : ∀ a a', R a a' → S a a') : Alike I F S m m' := fun s a s' hs e =>
  (h s a s' hs e).imp (hE a) fun ⟨h1, a', h2, h3⟩ => ⟨h1, a', h2, hR _ _ h3⟩

theorem Alike.pure {E : α → Prop} {R : α → α → Prop} {a a' : α} (h : R a a') :
    Alike I E R (Pure.pure a : SM σ ε α) (Pure.pure a') := by
  rintro s _ _ hs ⟨⟩
  exact .inr ⟨hs, a', rfl, h⟩

theorem Alike.fail {E : α → Prop} {R : α → α → Prop} (e : ε) (m' : SM σ ε α) :
    Alike I E R (SM.fail e : SM σ ε α) m' := by
  rintro s _ _ hs ⟨⟩

theorem Alike.crash {E : α → Prop} {R : α → α → Prop} (m' : SM σ ε α) : Alike I E R (SM.crash : SM σ ε α) m' := by
  rintro s _ _ hs ⟨⟩

theorem Alike.bind {E : β → Prop} {R : α → α → Prop} {S : β → β → Prop} {m m' : SM σ ε α} {f f' : α → SM σ ε β}
    (h : Alike I never R m m') (hf : ∀ a a', R a a' → Alike I E S (f a) (f' a')) : Alike I E S (m >>= f) (m' >>= f') := by
  intro s b s'' hs e
  obtain ⟨a, s', h1, h2⟩ := SM.bind_eq_ok.1 e
  rcases h s a s' hs h1 with hE | ⟨hi, a', h3, hr⟩
  · exact hE.elim
  rw [SM.bind_of_ok h3]
  exact hf a a' hr s' b s'' hi h2

/-- … with the same first part. -/
theorem Alike.then {E : β → Prop} {S : β → β → Prop} {m : SM σ ε α} {f f' : α → SM σ ε β} (h : Keeps I m)
    (hf : ∀ a, Alike I E S (f a) (f' a)) : Alike I E S (m >>= f) (m >>= f') :=
  Alike.bind (Alike.same h) fun a _ e => e ▸ hf a

theorem Alike.ite {c : Prop} [Decidable c] {E : α → Prop} {R : α → α → Prop} {m m' n n' : SM σ ε α}
    (h : Alike I E R m m') (h' : Alike I E R n n') : Alike I E R (if c then m else n) (if c then m' else n') := by
  split <;> assumption

end

/-! ### decoders -/

/-- what holds of the bytes still holds when some of them have been taken. -/
class Tailed (I : Bytes → Prop) : Prop where
  drop : ∀ n s, I s → I (s.drop n)

instance : Tailed Short := ⟨fun n s h => by unfold Short at *; rw [List.length_drop]; omega⟩

section
variable {α : Type} {I : Bytes → Prop} [Tailed I]

theorem keeps_skip (n : Nat) : Keeps I (P.skip n) :=
  Keeps.modify fun s h => Tailed.drop _ s h
omit [Tailed I] in
theorem keeps_checkLen (n : Nat) : Keeps I (P.checkLen n) := by
  intro s a s' h e
  unfold P.checkLen at e
  split at e <;> cases e
  exact h
theorem keeps_eat (n : Nat) : Keeps I (P.eat n) := by
  intro s a s' h e
  unfold P.eat at e
  split at e <;> cases e
  exact Tailed.drop n s h
theorem keeps_checkedEat (n : Nat) : Keeps I (P.checkedEat n) := by
  intro s a s' h e
  unfold P.checkedEat at e
  split at e
  · exact keeps_eat n s a s' h e
  · cases e
theorem keeps_eatU8 : Keeps I P.eatU8 := ((keeps_eat 1).bind fun _ => Keeps.pure _).bind fun _ => Keeps.pure _
theorem keeps_eatU16 : Keeps I P.eatU16 := ((keeps_eat 2).bind fun _ => Keeps.pure _).bind fun _ => Keeps.pure _
theorem keeps_eatU24 : Keeps I P.eatU24 := ((keeps_eat 3).bind fun _ => Keeps.pure _).bind fun _ => Keeps.pure _
theorem keeps_eatU32 : Keeps I P.eatU32 := ((keeps_eat 4).bind fun _ => Keeps.pure _).bind fun _ => Keeps.pure _
theorem keeps_checkedEatU8 : Keeps I P.checkedEatU8 :=
  ((keeps_checkedEat 1).bind fun _ => Keeps.pure _).bind fun _ => Keeps.pure _
theorem keeps_checkedEatU16 : Keeps I P.checkedEatU16 :=
  ((keeps_checkedEat 2).bind fun _ => Keeps.pure _).bind fun _ => Keeps.pure _
theorem keeps_checkedEatU24 : Keeps I P.checkedEatU24 :=
  ((keeps_checkedEat 3).bind fun _ => Keeps.pure _).bind fun _ => Keeps.pure _
theorem keeps_checkedEatU32 : Keeps I P.checkedEatU32 :=
  ((keeps_checkedEat 4).bind fun _ => Keeps.pure _).bind fun _ => Keeps.pure _
theorem keeps_checkedEatU64 : Keeps I P.checkedEatU64 :=
  ((keeps_checkedEat 8).bind fun _ => Keeps.pure _).bind fun _ => Keeps.pure _
theorem keeps_lenencInt : Keeps I P.checkedEatLenencInt :=
  keeps_checkedEatU8.bind fun _ => Keeps.ite (Keeps.pure _) (Keeps.ite (keeps_checkedEatU16.bind fun _ => Keeps.pure _)
    (Keeps.ite (keeps_checkedEatU24.bind fun _ => Keeps.pure _) (Keeps.ite keeps_checkedEatU64 (Keeps.pure _))))

end

theorem int_wide {s s1 : Bytes} {n : UInt64} (h : P.checkedEatLenencInt s = (.ok n, s1)) (hn : 2 ^ 32 ≤ n.toNat) :
    s = 0xFE :: Spec.le 8 n.toNat ++ s1 := by
  obtain ⟨b, hb, rfl⟩ := (lenencInt_reads _ _ _).1 h
  rcases hb with ⟨h, _⟩ | ⟨h, _⟩ | ⟨h, _⟩ | ⟨_, rfl⟩ | ⟨h, _⟩
  · omega
  · omega
  · omega
  · rfl
  · omega

/-- lengths are the same, but for those that do not fit. -/
theorem slice_same {s : Bytes} (hw : ¬ Wide s) : checkedEatLenencSlice s = P.checkedEatLenencSlice s := by
  unfold checkedEatLenencSlice P.checkedEatLenencSlice
  rcases h : P.checkedEatLenencInt s with ⟨o, s1⟩
  cases o with
  | ok n =>
    rw [SM.bind_of_ok h, SM.bind_of_ok h]
    have : usize n = n.toNat := by
      unfold usize
      by_cases hn : n.toNat < 2 ^ 32
      · exact Nat.mod_eq_of_lt hn
      · exact absurd ⟨n.toNat, s1, by omega, n.toNat_lt, int_wide h (by omega)⟩ hw
    rw [this]
  | err e => rw [SM.bind_of_err h, SM.bind_of_err h]
  | panic => rw [SM.bind_of_panic h, SM.bind_of_panic h]

theorem int_of_wide (n : Nat) (hn : n < 2 ^ 64) (r : Bytes) :
    P.checkedEatLenencInt (0xFE :: Spec.le 8 n ++ r) = (.ok (UInt64.ofNat n), r) := by
  refine (lenencInt_reads _ _ _).2 ⟨0xFE :: Spec.le 8 n, ?_, rfl⟩
  have : (UInt64.ofNat n).toNat = n := by rw [UInt64.toNat_ofNat']; omega
  show Spec.IntForm (UInt64.ofNat n).toNat _
  rw [this]
  exact .inr (.inr (.inr (.inl ⟨hn, rfl⟩)))

theorem slice_wide (n : Nat) (hn : n < 2 ^ 64) (r : Bytes) :
    P.checkedEatLenencSlice (0xFE :: Spec.le 8 n ++ r) = P.checkedEat n r ∧
    checkedEatLenencSlice (0xFE :: Spec.le 8 n ++ r) = P.checkedEat (n % 2 ^ 32) r := by
  have e : (UInt64.ofNat n).toNat = n := by rw [UInt64.toNat_ofNat']; omega
  unfold checkedEatLenencSlice P.checkedEatLenencSlice usize
  rw [SM.bind_of_ok (int_of_wide n hn r), SM.bind_of_ok (int_of_wide n hn r), e]
  exact ⟨rfl, rfl⟩

theorem slice_ok {s x s' : Bytes} (hs : Short s) (h : P.checkedEatLenencSlice s = (.ok x, s')) :
    checkedEatLenencSlice s = (.ok x, s') := by
  rw [slice_same, h]
  rintro ⟨n, r, h1, h2, rfl⟩
  rw [(slice_wide n h2 r).1] at h
  unfold Short at hs
  unfold P.checkedEat at h
  rw [if_neg (by simp only [List.cons_append, List.length_cons, List.length_append] at hs; omega)] at h
  cases h

theorem slice_alike {E : Bytes → Prop} : Alike Short E Eq P.checkedEatLenencSlice checkedEatLenencSlice := by
  intro s a s' hs h
  exact .inr ⟨(keeps_lenencInt.bind fun _ => keeps_checkedEat _) s a s' hs h, a, slice_ok hs h, rfl⟩

theorem str_ok {s : Bytes} {x : Str} {s' : Bytes} (hs : Short s) (h : P.checkedEatLenencStr s = (.ok x, s')) :
    checkedEatLenencStr s = (.ok x, s') := by
  unfold P.checkedEatLenencStr at h
  obtain ⟨a, s1, h1, h2⟩ := SM.bind_eq_ok.1 h
  unfold checkedEatLenencStr
  rw [SM.bind_of_ok (slice_ok hs h1)]
  exact h2

theorem str_same {s : Bytes} (hw : ¬ Wide s) : checkedEatLenencStr s = P.checkedEatLenencStr s := by
  unfold checkedEatLenencStr P.checkedEatLenencStr
  rw [SM.bind_apply, SM.bind_apply, slice_same hw]
  rfl

theorem optStr_same {s : Bytes} (hw : ¬ Wide s) : optStr s = Verif.optStr s := by
  unfold optStr Verif.optStr
  rw [SM.bind_apply, SM.bind_apply]
  unfold SM.attempt
  rw [str_same hw]
  rfl

theorem optStr_ok {s : Bytes} {x : Str} {s' : Bytes} (hs : Short s) (h : P.checkedEatLenencStr s = (.ok x, s')) :
    optStr s = Verif.optStr s := by
  unfold optStr Verif.optStr
  rw [SM.bind_apply, SM.bind_apply]
  unfold SM.attempt
  rw [h, str_ok hs h]

theorem str_not_panic (s : Bytes) : (checkedEatLenencStr s).1 ≠ .panic := by
  have : Lens 0 checkedEatLenencStr 0 := by
    refine Lens.bind (m := 0) (Lens.bind Lens.checkedEatLenencInt fun _ => Lens.checkedEat _ (.inr rfl)) fun a => ?_
    show Lens 0 (match fromUtf8 a with | some x => Pure.pure x | none => SM.fail _) 0
    cases fromUtf8 a with
    | some x => exact Lens.pure _ (Nat.le_refl _)
    | none => exact Lens.fail _
  exact (this s (Nat.zero_le _)).1

theorem optStr_total (s : Bytes) : ∃ o s', optStr s = (.ok o, s') := by
  unfold optStr
  rcases h : checkedEatLenencStr s with ⟨o, s'⟩
  cases o with
  | ok x => rw [SM.bind_of_ok (attempt_ok h)]; exact ⟨_, _, rfl⟩
  | err e =>
    have : SM.attempt checkedEatLenencStr s = (.ok (.error e), s') := by unfold SM.attempt; rw [h]
    rw [SM.bind_of_ok this]
    exact ⟨_, _, rfl⟩
  | panic => exact absurd (congrArg Prod.fst h) (str_not_panic s)

theorem okAlike_refl (p : OkPacket) : OkAlike p p := ⟨rfl, rfl, rfl, rfl, fun _ => rfl, fun _ _ => rfl⟩

theorem optStr_some {s : Bytes} {m : Str} {s' : Bytes} (hs : Short s) (h : Verif.optStr s = (.ok (some m), s')) :
    optStr s = (.ok (some m), s') ∧ Short s' := by
  rcases h1 : P.checkedEatLenencStr s with ⟨o, s1⟩
  cases o with
  | ok x =>
    rw [optStr_ok hs h1]
    refine ⟨h, ?_⟩
    unfold Verif.optStr at h
    rw [SM.bind_of_ok (attempt_ok h1)] at h
    cases congrArg Prod.snd h
    obtain ⟨b, _, rfl⟩ := (lenencStr_reads _ _ _).1 h1
    unfold Short at *
    rw [List.length_append] at hs
    show s'.length < _
    omega
  | err e =>
    have : SM.attempt P.checkedEatLenencStr s = (.ok (.error e), s1) := by unfold SM.attempt; rw [h1]
    unfold Verif.optStr at h
    rw [SM.bind_of_ok this] at h
    cases h
  | panic => exact absurd (congrArg Prod.fst h1) (Lens.checkedEatLenencStr.run s)

/-- the two texts: the same, or one of them is only found on one target. -/
theorem texts_alike {α : Type} (track : Bool) (k : Option Str → Option Str → α) (s : Bytes) (hs : Short s) :
    ∃ m i m' i' t t',
      (do let m ← Verif.optStr
          let i ← if track then Verif.optStr else pure none
          pure (k m i) : P α) s = (.ok (k m i), t) ∧
      (do let m ← optStr
          let i ← if track then optStr else pure none
          pure (k m i) : P α) s = (.ok (k m' i'), t') ∧
      (m.isSome = true → m' = m) ∧ (m.isSome = true → i.isSome = true → i' = i) := by
  obtain ⟨m, s1, h1, _⟩ := Verif.optStr_total s
  obtain ⟨m', s1', h1'⟩ := optStr_total s
  rw [SM.bind_of_ok h1, SM.bind_of_ok h1']
  cases track with
  | false =>
    refine ⟨m, none, m', none, s1, s1', rfl, rfl, fun h => ?_, fun _ h => (by cases h)⟩
    obtain ⟨x, rfl⟩ := Option.isSome_iff_exists.1 h
    have := (optStr_some hs h1).1
    rw [h1'] at this
    cases this
    rfl
  | true =>
    obtain ⟨i, s2, h2, _⟩ := Verif.optStr_total s1
    obtain ⟨i', s2', h2'⟩ := optStr_total s1'
    simp only [if_true]
    rw [SM.bind_of_ok h2, SM.bind_of_ok h2']
    refine ⟨m, i, m', i', s2, s2', rfl, rfl, fun h => ?_, fun h hi => ?_⟩
    · obtain ⟨x, rfl⟩ := Option.isSome_iff_exists.1 h
      have := (optStr_some hs h1).1
      rw [h1'] at this
      cases this
      rfl
    · obtain ⟨x, rfl⟩ := Option.isSome_iff_exists.1 h
      obtain ⟨y, rfl⟩ := Option.isSome_iff_exists.1 hi
      obtain ⟨h3, hs1⟩ := optStr_some hs h1
      rw [h1'] at h3
      cases h3
      have := (optStr_some hs1 h2).1
      rw [h2'] at this
      cases this
      rfl

/-- … and the same if no length is too large. -/
theorem texts_same {α : Type} (track : Bool) (k : Option Str → Option Str → α) (s : Bytes) (h1 : ¬ Wide s)
    (h2 : ∀ m s', Verif.optStr s = (.ok m, s') → ¬ Wide s') :
      (do let m ← optStr
          let i ← if track then optStr else pure none
          pure (k m i) : P α) s =
      (do let m ← Verif.optStr
          let i ← if track then Verif.optStr else pure none
          pure (k m i) : P α) s := by
  obtain ⟨m, s1, h, _⟩ := Verif.optStr_total s
  have h' := h
  rw [← optStr_same h1] at h'
  rw [SM.bind_of_ok h, SM.bind_of_ok h']
  cases track with
  | false => rfl
  | true =>
    simp only [if_true]
    rw [SM.bind_apply, SM.bind_apply, optStr_same (h2 m s1 h)]

/-- what becomes of an OK packet. -/
def OkBoth (x x' : Out ProtocolError OkPacket) : Prop :=
  (∃ e, x = .err e ∧ x' = .err e) ∨ ∃ p p', x = .ok p ∧ x' = .ok p' ∧ OkAlike p p'

theorem readTail_both (caps : UInt32) (a l : UInt64) (s : Bytes) (hs : Short s) :
    OkBoth (OkPacket.readTail caps a l s).1 (readTail caps a l s).1 := by
  unfold OkPacket.readTail readTail
  rcases h1 : P.checkedEatU16 s with ⟨o, s1⟩
  cases o with
  | err e => rw [SM.bind_of_err h1, SM.bind_of_err h1]; exact .inl ⟨e, rfl, rfl⟩
  | panic => exact absurd (congrArg Prod.fst h1) (Lens.checkedEatU16.run s)
  | ok st =>
    have hs1 := keeps_checkedEatU16 _ _ _ hs h1
    rw [SM.bind_of_ok h1, SM.bind_of_ok h1]
    dsimp only
    rcases h2 : P.checkedEatU16 s1 with ⟨o, s2⟩
    cases o with
    | err e => rw [SM.bind_of_err h2, SM.bind_of_err h2]; exact .inl ⟨e, rfl, rfl⟩
    | panic => exact absurd (congrArg Prod.fst h2) (Lens.checkedEatU16.run s1)
    | ok w =>
      have hs2 := keeps_checkedEatU16 _ _ _ hs1 h2
      rw [SM.bind_of_ok h2, SM.bind_of_ok h2]
      obtain ⟨m, i, m', i', t, t', e1, e2, hm, hi⟩ := texts_alike
        (hasFlag32 caps Cap.SESSION_TRACK && hasFlag16 (statusTruncate st) Status.SESSION_STATE_CHANGED)
        (fun m i => ({ affectedRows := a, lastInsertId := l, status := statusTruncate st, warnings := w, message := m,
                       sessionStateInfo := i } : OkPacket)) s2 hs2
      rw [e1, e2]
      exact .inr ⟨_, _, rfl, rfl, rfl, rfl, rfl, rfl, hm, hi⟩

theorem readOk_both (caps : UInt32) (p : Bytes) (hp : Short p) :
    OkBoth (runP (OkPacket.readOk caps) p) (runP (readOk caps) p) := by
  unfold runP OkPacket.readOk readOk
  rcases h1 : P.checkedEatU8 p with ⟨o, s1⟩
  cases o with
  | err e => rw [SM.bind_of_err h1, SM.bind_of_err h1]; exact .inl ⟨e, rfl, rfl⟩
  | panic => exact absurd (congrArg Prod.fst h1) (Lens.checkedEatU8.run p)
  | ok h =>
    have hs1 := keeps_checkedEatU8 _ _ _ hp h1
    rw [SM.bind_of_ok h1, SM.bind_of_ok h1]
    by_cases hh : h ≠ 0
    · rw [if_pos hh, if_pos hh]
      exact .inl ⟨_, rfl, rfl⟩
    rw [if_neg hh, if_neg hh]
    rcases h2 : P.checkedEatLenencInt s1 with ⟨o, s2⟩
    cases o with
    | err e => rw [SM.bind_of_err h2, SM.bind_of_err h2]; exact .inl ⟨e, rfl, rfl⟩
    | panic => exact absurd (congrArg Prod.fst h2) (Lens.checkedEatLenencInt.run s1)
    | ok a =>
      have hs2 := keeps_lenencInt _ _ _ hs1 h2
      rw [SM.bind_of_ok h2, SM.bind_of_ok h2]
      rcases h3 : P.checkedEatLenencInt s2 with ⟨o, s3⟩
      cases o with
      | err e => rw [SM.bind_of_err h3, SM.bind_of_err h3]; exact .inl ⟨e, rfl, rfl⟩
      | panic => exact absurd (congrArg Prod.fst h3) (Lens.checkedEatLenencInt.run s2)
      | ok l =>
        rw [SM.bind_of_ok h3, SM.bind_of_ok h3]
        exact readTail_both caps a l s3 (keeps_lenencInt _ _ _ hs2 h3)

theorem ignore_short {s s' : Bytes} {u : Unit} (hs : Short s) (h : SM.ignore P.checkedEatLenencInt s = (.ok u, s')) : Short s' := by
  rw [afterInt_spec] at h
  cases h
  unfold Short at *
  unfold Spec.afterInt
  cases s with
  | nil => exact hs
  | cons x r =>
    dsimp only
    rw [List.length_cons] at hs
    generalize (if x = 0xFC then 2 else if x = 0xFD then 3 else if x = 0xFE then 8 else 0) = k
    split
    · rw [List.length_drop]; omega
    · omega

theorem readEof_both (caps : UInt32) (p : Bytes) (hp : Short p) :
    OkBoth (runP (OkPacket.readEof caps) p) (runP (readEof caps) p) := by
  unfold runP OkPacket.readEof readEof
  have h1 := afterInt_spec p
  have h2 := afterInt_spec (Spec.afterInt p)
  rw [SM.bind_of_ok h1, SM.bind_of_ok h1, SM.bind_of_ok h2, SM.bind_of_ok h2]
  exact readTail_both caps 0 0 _ (ignore_short (ignore_short hp h1) h2)

/-! ### other packets -/

theorem progress_alike : Alike Short never Eq ErrPacket.deserializeProgress deserializeProgress :=
  Alike.then (keeps_checkLen _) fun _ => Alike.then (keeps_skip _) fun _ => Alike.then keeps_eatU8 fun _ =>
    Alike.then keeps_eatU8 fun _ => Alike.then keeps_eatU24 fun _ => Alike.bind slice_alike fun _ _ e =>
      Alike.pure (by rw [e])

theorem errPacket_alike (caps : UInt32) : Alike Short never Eq (ErrPacket.deserialize caps) (errPacket caps) := by
  refine Alike.then (keeps_checkLen _) fun _ => Alike.then keeps_eatU8 fun h => ?_
  refine Alike.ite (Alike.then Keeps.get fun _ => Alike.fail _ _) (Alike.then keeps_eatU16 fun code => ?_)
  refine Alike.ite progress_alike (Alike.same ?_)
  unfold ErrPacket.deserializeError
  have ht : ∀ state : Option Bytes, Keeps Short (do
      let rest ← P.eatAll
      match fromUtf8 rest with
      | some msg => pure (.error code state msg)
      | none => SM.fail (.parse .fromUtf8) : P ErrPacket) := by
    intro state
    refine Keeps.bind (fun s a s' _ h => (by cases h; exact (by decide : (0 : Nat) < 2 ^ 32))) fun rest => ?_
    cases fromUtf8 rest with
    | some _ => exact Keeps.pure _
    | none => exact Keeps.fail _
  split
  · refine keeps_checkedEatU8.bind fun m => ?_
    split
    · exact Keeps.get.bind fun _ => Keeps.bind (Keeps.fail _) ht
    · refine (keeps_checkedEat _).bind fun x => ?_
      split
      · exact Keeps.bind (Keeps.pure _) ht
      · exact Keeps.bind (Keeps.fail _) ht
  · exact Keeps.bind (Keeps.pure _) ht

/-! ### rows -/

theorem deserializeText_alike (fp : FloatParse) (t : ColumnType) (flags : UInt16) :
    Alike Short never Eq (Verif.deserializeText fp t flags) (deserializeText fp t flags) := by
  refine Alike.then Keeps.get fun s => ?_
  cases s with
  | nil => exact Alike.fail _ _
  | cons b r =>
    dsimp only
    refine Alike.ite (Alike.then (keeps_skip _) fun _ => Alike.pure rfl) ?_
    refine Alike.bind slice_alike fun x x' e => ?_
    rw [← e]
    exact Alike.same (Keeps.ofOut _)

theorem textRow_alike (fp : FloatParse) (cols : List Column) :
    Alike Short never Eq (Verif.textRowLoop fp cols) (textRowLoop fp cols) := by
  induction cols with
  | nil => exact Alike.pure rfl
  | cons c cs ih =>
    refine Alike.bind (deserializeText_alike fp _ _) fun v v' e => ?_
    exact Alike.bind ih fun vs vs' e' => Alike.pure (by rw [e, e'])

theorem keeps_bin {I : Bytes → Prop} [Tailed I] (t : ColumnType) (flags : UInt16) : Keeps I (Verif.deserializeBin t flags) := by
  have hp : ∀ (x : Value), Keeps I (pure x : P Value) := fun x => Keeps.pure x
  have hint : ∀ u : Bool, Keeps I (deserializeTiny u) ∧ Keeps I (deserializeShort u) ∧
      Keeps I (deserializeInt u) ∧ Keeps I (deserializeLong u) := by
    intro u
    cases u
    all_goals
      refine ⟨?_, ?_, ?_, ?_⟩
      · exact keeps_checkedEatU8.bind fun _ => hp _
      · exact keeps_checkedEatU16.bind fun _ => hp _
      · exact keeps_checkedEatU32.bind fun _ => hp _
      · exact keeps_checkedEatU64.bind fun _ => hp _
  have hdate : Keeps I deserializeDate := by
    unfold deserializeDate
    refine keeps_checkedEatU8.bind fun _ => (keeps_checkLen _).bind fun _ => ?_
    repeat' first
      | with_reducible exact Keeps.pure _
      | with_reducible exact keeps_eatU32
      | with_reducible exact keeps_eatU8
      | with_reducible exact keeps_eatU16
      | with_reducible refine Keeps.bind ?_ fun _ => ?_
      | split
  have hdt : Keeps I deserializeDatetime := by
    unfold deserializeDatetime
    refine keeps_checkedEatU8.bind fun _ => (keeps_checkLen _).bind fun _ => ?_
    repeat' first
      | with_reducible exact Keeps.pure _
      | with_reducible exact keeps_eatU32
      | with_reducible exact keeps_eatU8
      | with_reducible exact keeps_eatU16
      | with_reducible refine Keeps.bind ?_ fun _ => ?_
      | split
  have htime : Keeps I deserializeTime := by
    unfold deserializeTime
    refine keeps_checkedEatU8.bind fun _ => (keeps_checkLen _).bind fun _ => ?_
    repeat' first
      | with_reducible exact Keeps.pure _
      | with_reducible exact keeps_eatU32
      | with_reducible exact keeps_eatU8
      | with_reducible exact keeps_eatU16
      | with_reducible refine Keeps.bind ?_ fun _ => ?_
      | split
  have hb : Keeps I (do return .bytes (← P.checkedEatLenencSlice) : P Value) :=
    (keeps_lenencInt.bind fun _ => keeps_checkedEat _).bind fun _ => hp _
  cases t <;> first
    | exact hb
    | exact (hint _).1
    | exact (hint _).2.1
    | exact (hint _).2.2.1
    | exact (hint _).2.2.2
    | exact hdate
    | exact hdt
    | exact htime
    | exact hp _
    | exact Keeps.crash
    | exact keeps_checkedEatU32.bind fun _ => hp _
    | exact keeps_checkedEatU64.bind fun _ => hp _

theorem deserializeBin_alike (t : ColumnType) (flags : UInt16) :
    Alike Short never Eq (Verif.deserializeBin t flags) (deserializeBin t flags) := by
  have hb : Alike Short never Eq (do return .bytes (← P.checkedEatLenencSlice) : P Value)
      (do return .bytes (← checkedEatLenencSlice)) :=
    Alike.bind slice_alike fun _ _ e => Alike.pure (by rw [e])
  have hs := keeps_bin (I := Short) t flags
  cases t <;> first
    | exact hb
    | exact Alike.same hs

theorem binRow_alike (bm : Bytes) (i : Nat) (cols : List Column) :
    Alike Short never Eq (Verif.binRowLoop bm i cols) (binRowLoop bm i cols) := by
  induction cols generalizing i with
  | nil => exact Alike.pure rfl
  | cons c cs ih =>
    refine Alike.then (Keeps.ofOut _) fun null => Alike.ite ?_ ?_
    · exact Alike.bind (ih _) fun vs vs' e => Alike.pure (by rw [e])
    · refine Alike.bind (deserializeBin_alike _ _) fun v v' e => ?_
      exact Alike.bind (ih _) fun vs vs' e' => Alike.pure (by rw [e, e'])

theorem readTextRow_ok (fp : FloatParse) {p : Bytes} (hp : Short p) {cols : List Column} {vs : List Value}
    (h : Verif.readTextRow fp p cols = .ok vs) : readTextRow fp p cols = .ok vs := by
  rcases textRow_alike fp cols p vs _ hp (Prod.ext h rfl) with h | ⟨_, vs', h2, rfl⟩
  · exact h.elim
  · exact congrArg Prod.fst h2

theorem readBinRow_ok {p : Bytes} (hp : Short p) {cols : List Column} {vs : List Value}
    (h : Verif.readBinRow p cols = .ok vs) : readBinRow p cols = .ok vs := by
  have : Alike Short never Eq (do
      P.skip 1
      let bitmap ← NullBitmap.deserialize false cols.length
      Verif.binRowLoop bitmap 0 cols : P (List Value)) (do
      P.skip 1
      let bitmap ← NullBitmap.deserialize false cols.length
      binRowLoop bitmap 0 cols) :=
    Alike.then (keeps_skip _) fun _ => Alike.then (keeps_checkedEat _) fun bm => binRow_alike bm 0 cols
  rcases this p vs _ hp (Prod.ext h rfl) with h | ⟨_, vs', h2, rfl⟩
  · exact h.elim
  · exact congrArg Prod.fst h2

/-! ### public keys -/

/-- the same, or refused. -/
def Refuses {α : Type} (m m' : D α) : Prop := ∀ s, m' s = m s ∨ (m' s).1 = .err .invalidPem

theorem Refuses.refl {α : Type} (m : D α) : Refuses m m := fun _ => .inl rfl

theorem Refuses.bind {α β : Type} {m m' : D α} {f f' : α → D β} (h : Refuses m m') (hf : ∀ a, Refuses (f a) (f' a)) :
    Refuses (m >>= f) (m' >>= f') := by
  intro s
  rcases h s with h | h
  · rcases hm : m s with ⟨o, s1⟩
    rw [hm] at h
    cases o with
    | ok a => rw [SM.bind_of_ok hm, SM.bind_of_ok h]; exact hf a s1
    | err e => rw [SM.bind_of_err hm, SM.bind_of_err h]; exact .inl rfl
    | panic => rw [SM.bind_of_panic hm, SM.bind_of_panic h]; exact .inl rfl
  · right
    rcases hm : m' s with ⟨o, s1⟩
    rw [hm] at h
    cases h
    rw [SM.bind_of_err hm]

theorem derLen_refuses : Refuses Verif.derLen derLen := by
  intro s
  unfold Verif.derLen derLen
  cases s with
  | nil => exact .inl rfl
  | cons b r =>
    dsimp only
    by_cases hb : b &&& 0x80 = 0x80
    · rw [if_pos hb, if_pos hb]
      by_cases h4 : (b &&& 0x7F).toNat > 4
      · rw [if_pos h4]; exact .inr rfl
      · rw [if_neg h4, if_neg (show ¬ (b &&& 0x7F).toNat > 8 by omega)]; exact .inl rfl
    · rw [if_neg hb, if_neg hb]; exact .inl rfl

theorem derUint_refuses : Refuses Verif.derUint derUint :=
  (Refuses.refl _).bind fun _ => derLen_refuses.bind fun _ => Refuses.refl _

theorem derSequence_refuses : Refuses Verif.derSequence derSequence :=
  (Refuses.refl _).bind fun _ => derLen_refuses.bind fun _ => Refuses.refl _

theorem derBitString_refuses : Refuses Verif.derBitString derBitString :=
  (Refuses.refl _).bind fun _ => derLen_refuses.bind fun _ => Refuses.refl _

theorem outBind_refuses {α β : Type} {x x' : Out CryptError α} {f f' : α → Out CryptError β} (h : x' = x ∨ x' = .err .invalidPem)
    (hf : ∀ a, f' a = f a ∨ f' a = .err .invalidPem) : (x' >>= f') = (x >>= f) ∨ (x' >>= f') = .err .invalidPem := by
  rcases h with rfl | rfl
  · cases x' with
    | ok a => exact hf a
    | err e => exact .inl rfl
    | panic => exact .inl rfl
  · exact .inr rfl

theorem Refuses.out {α : Type} {m m' : D α} (h : Refuses m m') (s : Bytes) : (m' s).1 = (m s).1 ∨ (m' s).1 = .err .invalidPem :=
  (h s).imp (congrArg Prod.fst) id

theorem pkcs1_refuses (s : Bytes) : tryFromPkcs1 s = Verif.tryFromPkcs1 s ∨ tryFromPkcs1 s = .err .invalidPem :=
  outBind_refuses (derSequence_refuses.out s) fun _ =>
    (derUint_refuses.bind fun _ => derUint_refuses.bind fun _ => Refuses.refl _).out _

theorem pkcs8_refuses (s : Bytes) : tryFromPkcs8 s = Verif.tryFromPkcs8 s ∨ tryFromPkcs8 s = .err .invalidPem :=
  outBind_refuses (derSequence_refuses.out s) fun _ =>
    outBind_refuses ((derSequence_refuses.bind fun _ => derBitString_refuses).out _) fun p => by
      by_cases hp : p.1 ≠ 0
      · rw [if_pos hp, if_pos hp]; exact .inl rfl
      · rw [if_neg hp, if_neg hp]; exact pkcs1_refuses _

theorem pem_refuses (t : Bytes) : tryFromPem t = Verif.tryFromPem t ∨ tryFromPem t = .err .invalidPem := by
  refine outBind_refuses (.inl rfl) fun p => ?_
  cases b64Decode p.1 with
  | none => exact .inl rfl
  | some body =>
    dsimp only
    split
    · exact pkcs1_refuses body
    · exact pkcs8_refuses body

/-! ### keys as they are encoded -/

theorem derLen_derLength (n : Nat) (rest : Bytes) (hn : n < 2 ^ 32) :
    derLen (Spec.derLength n ++ rest) = (.ok n, rest) := by
  unfold Spec.derLength
  by_cases h : n < 128
  · rw [if_pos h]
    have e : (UInt8.ofNat n &&& 0x80 = 0x80) = False := by
      simp only [eq_iff_iff, iff_false]
      interval_cases n <;> decide
    simp only [List.cons_append, List.nil_append, derLen, e, if_false]
    rw [UInt8.toNat_ofNat', Nat.mod_eq_of_lt (by omega)]
  · rw [if_neg h]
    have hlog : n.log2 < 32 := (Nat.log2_lt (by omega)).2 hn
    have ho : Spec.octets n = n.log2 / 8 + 1 := by unfold Spec.octets; rw [if_neg (by omega)]
    have h8 : Spec.octets n ≤ 4 := by omega
    have h1 : 1 ≤ Spec.octets n := by omega
    have hlt := lt_pow_octets n
    generalize Spec.octets n = k at *
    have e1 : UInt8.ofNat (128 + k) &&& 0x80 = 0x80 := by interval_cases k <;> decide
    have e2 : (UInt8.ofNat (128 + k) &&& 0x7F).toNat = k := by interval_cases k <;> decide
    simp only [List.cons_append, derLen, e1, if_true, e2]
    rw [if_neg (by omega), if_neg (by rw [List.length_append, length_i2osp]; omega)]
    have t : (Spec.i2osp k n ++ rest).take k = Spec.i2osp k n := by
      rw [List.take_append_of_le_length (by rw [length_i2osp]),
        List.take_of_length_le (by rw [length_i2osp])]
    have d : (Spec.i2osp k n ++ rest).drop k = rest := by
      rw [List.drop_append_of_le_length (by rw [length_i2osp]),
        List.drop_of_length_le (by rw [length_i2osp]), List.nil_append]
    rw [t, d, beNat_eq_os2ip, os2ip_i2osp, Nat.mod_eq_of_lt hlt]

theorem derSequence_tlv (a rest : Bytes) (ha : a.length < 2 ^ 32) :
    derSequence (Spec.tlv 0x30 a ++ rest) = (.ok a, rest) := by
  unfold derSequence Spec.tlv
  rw [List.append_assoc, List.cons_append, SM.bind_of_ok (derTag_cons _ _),
    SM.bind_of_ok (derLen_derLength _ _ ha), derTake_append]

theorem derUint_derInteger (n : Nat) (rest : Bytes) (hn : Spec.bitLength n / 8 + 1 < 2 ^ 32) :
    derUint (Spec.derInteger n ++ rest) = (.ok n, rest) := by
  unfold derUint Spec.derInteger Spec.tlv
  rw [List.append_assoc, List.cons_append, SM.bind_of_ok (derTag_cons _ _),
    SM.bind_of_ok (derLen_derLength _ _ (by rw [length_i2osp]; exact hn)),
    SM.bind_of_ok (derTake_append _ _), beNat_eq_os2ip, os2ip_i2osp,
    Nat.mod_eq_of_lt (lt_pow_bitLength n)]
  rfl

theorem derBitString_tlv (b : UInt8) (a rest : Bytes) (ha : a.length + 1 < 2 ^ 32) :
    derBitString (Spec.tlv 0x03 (b :: a) ++ rest) = (.ok (b, a), rest) := by
  unfold derBitString Spec.tlv
  rw [List.append_assoc, List.cons_append, SM.bind_of_ok (derTag_cons _ _),
    SM.bind_of_ok (derLen_derLength _ _ (by rw [List.length_cons]; exact ha))]
  simp only [derBits, List.cons_append, List.length_cons]
  rw [if_neg (by rw [List.length_append]; omega), Nat.add_sub_cancel, List.take_left, List.drop_left]

theorem tryFromPkcs1_pkcs1 (m e : Nat) (hl : (Spec.pkcs1 m e).length < 2 ^ 32) :
    tryFromPkcs1 (Spec.pkcs1 m e) = .ok { modulus := m, exponent := e } := by
  have h1 := length_tlv 0x30 (Spec.derInteger m ++ Spec.derInteger e)
  have h2 : (Spec.tlv 0x30 (Spec.derInteger m ++ Spec.derInteger e)).length < 2 ^ 32 := hl
  rw [List.length_append] at h1
  have h3 := length_derInteger m
  have h4 := length_derInteger e
  unfold tryFromPkcs1 Spec.pkcs1
  have := derSequence_tlv (Spec.derInteger m ++ Spec.derInteger e) []
    (by rw [List.length_append]; omega)
  rw [List.append_nil] at this
  rw [this, Out.ok_bind, SM.bind_of_ok (derUint_derInteger m _ (by omega))]
  have h5 := derUint_derInteger e [] (by omega)
  rw [List.append_nil] at h5
  rw [SM.bind_of_ok h5]
  rfl

theorem tryFromPkcs8_spki (m e : Nat) (hl : (Spec.spki m e).length < 2 ^ 32) :
    tryFromPkcs8 (Spec.spki m e) = .ok { modulus := m, exponent := e } := by
  have h0 : ∀ alg : Bytes, alg.length < 128 →
      (Spec.tlv 0x30 (Spec.tlv 0x30 alg ++ Spec.tlv 0x03 (0 :: Spec.pkcs1 m e))).length < 2 ^ 32 →
      tryFromPkcs8 (Spec.tlv 0x30 (Spec.tlv 0x30 alg ++ Spec.tlv 0x03 (0 :: Spec.pkcs1 m e))) =
        .ok { modulus := m, exponent := e } := by
    intro alg ha hl
    have h1 := length_tlv 0x30 (Spec.tlv 0x30 alg ++ Spec.tlv 0x03 (0 :: Spec.pkcs1 m e))
    rw [List.length_append] at h1
    have h2 := length_tlv 0x03 (0 :: Spec.pkcs1 m e)
    rw [List.length_cons] at h2
    unfold tryFromPkcs8
    have := derSequence_tlv (Spec.tlv 0x30 alg ++ Spec.tlv 0x03 (0 :: Spec.pkcs1 m e)) []
      (by rw [List.length_append]; omega)
    rw [List.append_nil] at this
    rw [this, Out.ok_bind, SM.bind_of_ok (derSequence_tlv alg _ (by omega))]
    have h5 := derBitString_tlv 0 (Spec.pkcs1 m e) [] (by omega)
    rw [List.append_nil] at h5
    rw [h5, Out.ok_bind, if_neg (by simp), tryFromPkcs1_pkcs1 m e (by omega)]
  exact h0 _ (by decide) hl

theorem pem_pkcs1 (m e : Nat) (t : Bytes) (hl : (Spec.pkcs1 m e).length < 2 ^ 32)
    (h : Spec.SameText t (Spec.pemPkcs1 m e)) :
    tryFromPem t = .ok { modulus := m, exponent := e } := by
  have hs := strip_text t _ _ _ (b64Encode_no_space _) h
  have eb : (Spec.text "-----BEGIN RSA PUBLIC KEY-----").filter (!Spec.isSpace ·) = pkcs1Begin := by
    decide +kernel
  have ee : (Spec.text "-----END RSA PUBLIC KEY-----").filter (!Spec.isSpace ·) = pkcs1End := by
    decide +kernel
  rw [eb, ee] at hs
  unfold tryFromPem
  simp only []
  rw [hs, if_pos, pemBody_markers]
  · simp only [Out.map'_ok, Out.ok_bind]
    rw [b64Decode_b64Encode]
    exact tryFromPkcs1_pkcs1 m e hl
  · constructor
    · rw [List.isPrefixOf_iff_prefix, List.append_assoc]; exact List.prefix_append _ _
    · rw [List.isSuffixOf_iff_suffix]; exact List.suffix_append _ _

theorem pem_pkcs8 (m e : Nat) (t : Bytes) (hl : (Spec.spki m e).length < 2 ^ 32)
    (h : Spec.SameText t (Spec.pemSpki m e)) :
    tryFromPem t = .ok { modulus := m, exponent := e } := by
  have hs := strip_text t _ _ _ (b64Encode_no_space _) h
  have eb : (Spec.text "-----BEGIN PUBLIC KEY-----").filter (!Spec.isSpace ·) = pkcs8Begin := by
    decide +kernel
  have ee : (Spec.text "-----END PUBLIC KEY-----").filter (!Spec.isSpace ·) = pkcs8End := by
    decide +kernel
  rw [eb, ee] at hs
  unfold tryFromPem
  simp only []
  rw [hs, if_neg, if_pos, pemBody_markers]
  · simp only [Out.map'_ok, Out.ok_bind]
    rw [b64Decode_b64Encode]
    exact tryFromPkcs8_spki m e hl
  · constructor
    · rw [List.isPrefixOf_iff_prefix, List.append_assoc]; exact List.prefix_append _ _
    · rw [List.isSuffixOf_iff_suffix]; exact List.suffix_append _ _
  · rintro ⟨h1, _⟩
    rw [List.isPrefixOf_iff_prefix, List.append_assoc] at h1
    have : pkcs1Begin.take 11 = (pkcs8Begin ++ (Spec.b64Encode (Spec.spki m e) ++ pkcs8End)).take 11 := by
      obtain ⟨x, hx⟩ := h1
      rw [← hx, List.take_append_of_le_length (by decide +kernel)]
    rw [List.take_append_of_le_length (by decide +kernel)] at this
    exact absurd this (by decide +kernel)

/-! ### calls -/

/-- what holds of a stream still holds when some of it has been read. -/
class Onward (I : Conn → Prop) : Prop where
  later : ∀ c c', c'.rx <:+ c.rx → I c → I c'

instance : Onward Tame := ⟨fun _ _ h hc c1 p c2 hs hr => hc c1 p c2 (hs.trans h) hr⟩

/-- only reads. -/
def Shrinks {α : Type} (m : M α) : Prop := ∀ c a c', m c = (.ok a, c') → c'.rx <:+ c.rx

section
variable {α β : Type}

theorem Shrinks.keeps {I : Conn → Prop} [Onward I] {m : M α} (h : Shrinks m) : Keeps I m := fun c a c' hc e =>
  Onward.later c c' (h c a c' e) hc

theorem Shrinks.pure (a : α) : Shrinks (Pure.pure a : M α) := by rintro s _ _ ⟨⟩; exact List.suffix_refl _
theorem Shrinks.fail (e : Error) : Shrinks (SM.fail e : M α) := by rintro s _ _ ⟨⟩
theorem Shrinks.crash : Shrinks (SM.crash : M α) := by rintro s _ _ ⟨⟩
theorem Shrinks.get : Shrinks (SM.get : M Conn) := by rintro s _ _ ⟨⟩; exact List.suffix_refl _
theorem Shrinks.modify {f : Conn → Conn} (hf : ∀ s, (f s).rx = s.rx) : Shrinks (SM.modify f : M Unit) := by
  rintro s _ _ ⟨⟩
  rw [hf]
theorem Shrinks.ofOut (x : Out Error α) : Shrinks (SM.ofOut x : M α) := by
  intro s a s' e
  have := congrArg Prod.snd e
  exact (show s = s' from this) ▸ List.suffix_refl _
theorem Shrinks.bind {m : M α} {f : α → M β} (h : Shrinks m) (hf : ∀ a, Shrinks (f a)) : Shrinks (m >>= f) := by
  intro s b s'' e
  obtain ⟨a, s', h1, h2⟩ := SM.bind_eq_ok.1 e
  exact (hf a s' b s'' h2).trans (h s a s' h1)

theorem Shrinks.readExact (n : Nat) : Shrinks (Verif.readExact n) := by
  intro c a c' h
  unfold Verif.readExact at h
  rcases ht : takeRx n c.rx with ⟨o, r⟩
  rw [ht] at h
  cases o with
  | ok bs =>
    cases h
    rw [(takeRx_eq_ok ht).1]
    exact List.suffix_append _ _
  | err e => cases h
  | panic => cases h

theorem Shrinks.writeRaw (bs : Bytes) : Shrinks (Verif.writeRaw bs) := by
  intro c a c' h
  unfold Verif.writeRaw at h
  split at h <;> cases h <;> exact List.suffix_refl _

theorem Shrinks.readChunk (dst : Bytes) : Shrinks (Verif.readChunk dst) := by
  unfold Verif.readChunk
  refine (Shrinks.readExact 4).bind fun m => ?_
  split
  · dsimp only
    split
    · exact Shrinks.pure _
    · refine (Shrinks.readExact _).bind fun _ => ?_
      split <;> exact Shrinks.pure _
  · exact Shrinks.crash

theorem Shrinks.readPacketLoop : ∀ fuel dst, Shrinks (Verif.readPacketLoop fuel dst)
  | 0, _ => Shrinks.crash
  | fuel + 1, dst => by
    unfold Verif.readPacketLoop
    refine (Shrinks.readChunk dst).bind fun x => ?_
    refine Shrinks.get.bind fun c => ?_
    split
    · exact Shrinks.fail _
    · refine (Shrinks.modify (by intro _; rfl)).bind fun _ => ?_
      split
      · exact Shrinks.pure _
      · exact Shrinks.readPacketLoop fuel _

theorem Shrinks.readPacket : Shrinks Verif.readPacket := fun c => Shrinks.readPacketLoop _ _ c

theorem Shrinks.writeChunks (bs : Bytes) : Shrinks (Verif.writeChunks bs) := by
  induction bs using Verif.writeChunks.induct with
  | case1 => unfold Verif.writeChunks; exact Shrinks.pure _
  | case2 bs hne n ih =>
    unfold Verif.writeChunks
    rw [dif_neg hne]
    exact Shrinks.get.bind fun _ => (Shrinks.writeRaw _).bind fun _ => (Shrinks.writeRaw _).bind fun _ =>
      (Shrinks.modify (by intro _; rfl)).bind fun _ => ih

theorem Shrinks.writePacket (bs : Bytes) : Shrinks (Verif.writePacket bs) := by
  unfold Verif.writePacket
  refine (Shrinks.writeChunks bs).bind fun _ => ?_
  split
  · exact Shrinks.get.bind fun _ => (Shrinks.writeRaw _).bind fun _ => Shrinks.modify (by intro _; rfl)
  · exact Shrinks.pure _

theorem Shrinks.readColumnDefs : ∀ n, Shrinks (Verif.readColumnDefs n)
  | 0 => Shrinks.pure _
  | n + 1 => Shrinks.readPacket.bind fun _ => (Shrinks.ofOut _).bind fun _ => (Shrinks.readColumnDefs n).bind fun _ =>
      Shrinks.pure _

theorem Shrinks.skipPackets : ∀ n, Shrinks (Verif.skipPackets n)
  | 0 => Shrinks.pure _
  | n + 1 => Shrinks.readPacket.bind fun _ => Shrinks.skipPackets n

end

theorem readColumnDefs_length {n : Nat} {c c' : Conn} {cs : List Column} (h : readColumnDefs n c = (.ok cs, c')) :
    cs.length = n := by
  induction n generalizing c cs c' with
  | zero => cases h; rfl
  | succ n ih =>
    unfold readColumnDefs at h
    obtain ⟨_, _, _, h⟩ := SM.bind_eq_ok.1 h
    obtain ⟨_, _, _, h⟩ := SM.bind_eq_ok.1 h
    obtain ⟨_, _, h1, h⟩ := SM.bind_eq_ok.1 h
    cases h
    rw [List.length_cons, ih h1]

section
variable {α β : Type}

/-- reading a packet. -/
theorem Alike.read {E : β → Prop} {S : β → β → Prop} {f f' : Bytes → M β}
    (hf : ∀ p, Short p → Alike Tame E S (f p) (f' p)) : Alike Tame E S (readPacket >>= f) (readPacket >>= f') := by
  intro c b c'' hc e
  obtain ⟨p, c', h1, h2⟩ := SM.bind_eq_ok.1 e
  rw [SM.bind_of_ok h1]
  exact hf p (hc c p c' (List.suffix_refl _) ((C76_packet _ _ _).1 h1)) c' b c'' (Shrinks.readPacket.keeps c p c' hc h1) h2

/-- decoding it. -/
theorem Alike.decode {E : α → Prop} {R : α → α → Prop} {x x' : Out ProtocolError α}
    (h : ∀ a, x = .ok a → ∃ a', x' = .ok a' ∧ R a a') : Alike Tame E R (liftP x) (liftP x') := by
  intro c a c' hc e
  cases x with
  | ok y =>
    cases e
    obtain ⟨a', rfl, hr⟩ := h _ rfl
    exact .inr ⟨hc, a', rfl, hr⟩
  | err => cases e
  | panic => cases e

theorem decode_ok {caps : UInt32} {p : Bytes} (hp : Short p) : ∀ a, runP (OkPacket.readOk caps) p = .ok a →
    ∃ a', runP (readOk caps) p = .ok a' ∧ OkAlike a a' := by
  intro a ha
  rcases readOk_both caps p hp with ⟨e, h, _⟩ | ⟨q, q', h, h', hq⟩
  · rw [h] at ha; cases ha
  · rw [h] at ha; cases ha; exact ⟨q', h', hq⟩

theorem decode_eof {caps : UInt32} {p : Bytes} (hp : Short p) : ∀ a, runP (OkPacket.readEof caps) p = .ok a →
    ∃ a', runP (readEof caps) p = .ok a' ∧ OkAlike a a' := by
  intro a ha
  rcases readEof_both caps p hp with ⟨e, h, _⟩ | ⟨q, q', h, h', hq⟩
  · rw [h] at ha; cases ha
  · rw [h] at ha; cases ha; exact ⟨q', h', hq⟩

theorem decode_err {caps : UInt32} {p : Bytes} (hp : Short p) : ∀ a, runP (ErrPacket.deserialize caps) p = .ok a →
    ∃ a', runP (errPacket caps) p = .ok a' ∧ a = a' := by
  intro a ha
  rcases errPacket_alike caps p a _ hp (Prod.ext ha rfl) with h | ⟨_, a', h, e⟩
  · exact h.elim
  · exact ⟨a', congrArg Prod.fst h, e⟩

/-- answers. -/
inductive ResponseAlike : Except ErrPacket OkPacket → Except ErrPacket OkPacket → Prop
  | ok {p p' : OkPacket} : OkAlike p p' → ResponseAlike (.ok p) (.ok p')
  | error (e : ErrPacket) : ResponseAlike (.error e) (.error e)

theorem decodeResponse_alike {p : Bytes} (hp : Short p) :
    Alike Tame never ResponseAlike (Verif.decodeResponse p) (decodeResponse p) := by
  refine Alike.then Shrinks.get.keeps fun c => ?_
  cases p with
  | nil => exact Alike.fail _ _
  | cons b r =>
    refine Alike.ite ?_ (Alike.ite ?_ (Alike.fail _ _))
    · exact Alike.bind (Alike.decode (decode_ok hp)) fun _ _ h => Alike.pure (.ok h)
    · exact Alike.bind (Alike.decode (decode_err hp)) fun _ _ h => Alike.pure (h ▸ .error _)

theorem readResponse_alike : Alike Tame never ResponseAlike Verif.readResponse readResponse :=
  Alike.read fun _ hp => decodeResponse_alike hp

theorem okOrServerError_alike {r r' : Except ErrPacket OkPacket} (h : ResponseAlike r r') :
    Alike Tame never OkAlike (okOrServerError r) (okOrServerError r') := by
  cases h with
  | ok h => exact Alike.pure h
  | error e => exact Alike.fail _ _

theorem cleanupLoop_alike : ∀ n, Alike Tame never OkAlike (Verif.cleanupLoop n) (cleanupLoop n)
  | 0 => Alike.crash _
  | n + 1 => by
    unfold Verif.cleanupLoop cleanupLoop
    refine Alike.read fun p hp => Alike.then Shrinks.get.keeps fun c => Alike.then (Keeps.ofOut _) fun last => ?_
    refine Alike.ite ?_ (cleanupLoop_alike n)
    exact Alike.then (Shrinks.modify (by intro _; rfl)).keeps fun _ => Alike.decode (decode_eof hp)

theorem cleanup_alike : Alike Tame never (fun _ _ => True) Verif.cleanup cleanup := by
  intro c a c' hc h
  unfold Verif.cleanup at h
  unfold cleanup
  by_cases hp : c.pendingResult = true
  · rw [if_pos hp] at h ⊢
    exact (Alike.bind (E := never) (cleanupLoop_alike _) fun _ _ _ => Alike.pure (R := fun _ _ => True) trivial) c a c' hc h
  · rw [if_neg hp] at h ⊢
    cases h
    exact .inr ⟨hc, _, rfl, trivial⟩

theorem executeCommand_alike (cmd : Command) (data : Bytes) :
    Alike Tame never Eq (Verif.executeCommand cmd data) (executeCommand cmd data) :=
  Alike.bind cleanup_alike fun _ _ _ => Alike.same
    ((Shrinks.modify (by intro _; rfl)).bind fun _ => Shrinks.writePacket _).keeps

theorem writeCommand_alike (data : Bytes) : Alike Tame never Eq (Verif.writeCommand data) (writeCommand data) :=
  Alike.bind cleanup_alike fun _ _ _ => Alike.same
    ((Shrinks.modify (by intro _; rfl)).bind fun _ => Shrinks.writePacket _).keeps

theorem setAlike_refl (rs : RSet) : SetAlike rs rs := by
  refine ⟨rfl, ?_⟩
  cases rs.okPacket with
  | none => exact .inl ⟨rfl, rfl⟩
  | some p => exact .inr ⟨p, p, rfl, rfl, okAlike_refl p⟩

/-- more columns than there is room for. -/
def Many (rs : RSet) : Prop := columnLimit < rs.columns.length

theorem readColumns_alike (p : Bytes) : Alike Tame Many SetAlike
    (do SM.modify fun c => { c with pendingResult := true }
        let n ← liftP (runP P.checkedEatLenencInt p)
        let cols ← Verif.readColumns n.toNat
        pure { columns := cols, okPacket := none } : M RSet)
    (do SM.modify fun c => { c with pendingResult := true }
        let n ← liftP (runP P.checkedEatLenencInt p)
        let cols ← readColumns (usize n)
        pure { columns := cols, okPacket := none }) := by
  refine Alike.then (Shrinks.modify (by intro _; rfl)).keeps fun _ => Alike.then (Keeps.ofOut _) fun n => ?_
  intro c rs c' hc h
  obtain ⟨cols, c1, h1, h2⟩ := SM.bind_eq_ok.1 h
  cases h2
  unfold Verif.readColumns at h1
  split at h1
  · cases h1
  have hl := readColumnDefs_length h1
  by_cases hm : columnLimit < n.toNat
  · exact .inl (show columnLimit < cols.length by omega)
  have hu : usize n = n.toNat := Nat.mod_eq_of_lt (by unfold columnLimit at hm; omega)
  have h3 : readColumns (usize n) c = (.ok cols, c') := by
    unfold readColumns
    rw [hu, if_neg hm, h1]
  rw [SM.bind_of_ok h3]
  exact .inr ⟨(Shrinks.readColumnDefs _).keeps _ _ _ hc h1, _, rfl, setAlike_refl _⟩

theorem read_alike : Alike Tame Many SetAlike RSet.read read := by
  refine Alike.read fun p hp => Alike.then Shrinks.get.keeps fun c => ?_
  cases p with
  | nil => exact readColumns_alike _
  | cons b r =>
    refine Alike.ite ?_ (Alike.ite (Alike.crash _) (Alike.ite ?_ (readColumns_alike _)))
    · refine Alike.bind (decodeResponse_alike hp) fun _ _ h => Alike.bind (okOrServerError_alike h) fun p p' h => ?_
      exact Alike.pure ⟨rfl, .inr ⟨p, p', rfl, rfl, h⟩⟩
    · exact Alike.bind (Alike.decode (decode_err hp)) fun _ _ _ => Alike.fail _ _

/-- readers of rows. -/
structure ReaderAlike {R : Type} (rd rd' : RowReader R) : Prop where
  row : ∀ p cols vs, Short p → rd.row p cols = .ok vs → rd'.row p cols = .ok vs
  build : rd'.build = rd.build

theorem textReader_alike {R : Type} (fp : FloatParse) (mk : List Column → List Value → Out ParseError R) :
    ReaderAlike (Verif.textReader fp mk) (textReader fp mk) := ⟨fun _ _ _ hp h => readTextRow_ok fp hp h, rfl⟩

theorem binReader_alike {R : Type} (mk : List Column → List Value → Out ParseError R) :
    ReaderAlike (Verif.binReader mk) (binReader mk) := ⟨fun _ _ _ hp h => readBinRow_ok hp h, rfl⟩

/-- results of reading. -/
def PairAlike {X : Type} (x x' : RSet × X) : Prop := SetAlike x.1 x'.1 ∧ x'.2 = x.2

section
variable {R : Type} {rd rd' : RowReader R} (h : ReaderAlike rd rd')
include h

theorem next_alike {rs rs' : RSet} (hr : SetAlike rs rs') : Alike Tame never PairAlike (rs.next rd) (next rd' rs') := by
  unfold RSet.next next
  rcases hr.okPacket with ⟨h1, h2⟩ | ⟨p, p', h1, h2, _⟩
  · rw [h1, h2, if_neg (by decide), if_neg (by decide)]
    refine Alike.read fun p hp => Alike.then Shrinks.get.keeps fun c => Alike.then (Keeps.ofOut _) fun last => ?_
    refine Alike.ite ?_ ?_
    · refine Alike.bind (Alike.decode (decode_eof hp)) fun q q' hq => ?_
      refine Alike.then (Shrinks.modify (by intro _; rfl)).keeps fun _ => Alike.pure ?_
      exact ⟨⟨hr.columns, .inr ⟨q, q', rfl, rfl, hq⟩⟩, rfl⟩
    · refine Alike.bind (R := Eq) (Alike.decode fun vs hv => ⟨vs, ?_, rfl⟩) fun vs vs' e => ?_
      · rw [hr.columns]
        exact h.row p rs.columns vs hp hv
      · rw [← e, h.build, hr.columns]
        exact Alike.then (Keeps.ofOut _) fun r => Alike.pure ⟨hr, rfl⟩
  · rw [h1, h2, if_pos (show (some p).isSome = true from rfl), if_pos (show (some p').isSome = true from rfl)]
    exact Alike.pure ⟨hr, rfl⟩

theorem collectLoop_alike : ∀ n {rs rs' : RSet}, SetAlike rs rs' →
    Alike Tame never PairAlike (RSet.collectLoop rd n rs) (collectLoop rd' n rs')
  | 0, _, _, _ => Alike.crash _
  | n + 1, rs, rs', hr => by
    unfold RSet.collectLoop collectLoop
    refine Alike.bind (next_alike h hr) fun x x' hx => ?_
    obtain ⟨rs1, r⟩ := x
    obtain ⟨rs1', r'⟩ := x'
    obtain ⟨hx, rfl⟩ : SetAlike rs1 rs1' ∧ r' = r := hx
    cases r' with
    | none => exact Alike.pure ⟨hx, rfl⟩
    | some r =>
      refine Alike.bind (collectLoop_alike n hx) fun y y' hy => ?_
      obtain ⟨rs2, l⟩ := y
      obtain ⟨rs2', l'⟩ := y'
      obtain ⟨hy, rfl⟩ : SetAlike rs2 rs2' ∧ l' = l := hy
      exact Alike.pure ⟨hy, rfl⟩

theorem collect_alike {rs rs' : RSet} (hr : SetAlike rs rs') : Alike Tame never PairAlike (rs.collect rd) (collect rd' rs') :=
  fun c a c' hc e => collectLoop_alike h (c.rx.length + 2) hr c a c' hc e

theorem drain_alike {rs rs' : RSet} (hr : SetAlike rs rs') : Alike Tame never SetAlike (rs.drain rd) (drain rd' rs') :=
  Alike.bind (collect_alike h hr) fun _ _ hx => Alike.pure hx.1

theorem one_alike {rs rs' : RSet} (hr : SetAlike rs rs') : Alike Tame never PairAlike (rs.one rd) (one rd' rs') := by
  intro c a c' hc e
  unfold RSet.one at e
  unfold one
  obtain ⟨res, c1, h1, h2⟩ := SM.bind_eq_ok.1 e
  cases res with
  | error e =>
    obtain ⟨_, _, _, h3⟩ := SM.bind_eq_ok.1 h2
    cases h3
  | ok x =>
    have hn : rs.next rd c = (.ok x, c1) := by
      unfold SM.attempt at h1
      rcases hn : rs.next rd c with ⟨o, c2⟩
      rw [hn] at h1
      cases o <;> cases h1
      rfl
    rcases next_alike h hr c x c1 hc hn with hf | ⟨hc1, x', hn', hx⟩
    · exact hf.elim
    have ha : SM.attempt (next rd' rs') c = (.ok (.ok x'), c1) := by unfold SM.attempt; rw [hn']
    rw [SM.bind_of_ok ha]
    obtain ⟨rs1, r⟩ := x
    obtain ⟨rs1', r'⟩ := x'
    obtain ⟨hx, rfl⟩ : SetAlike rs1 rs1' ∧ r' = r := hx
    have hd : Alike Tame never PairAlike (do let rs2 ← rs1.drain rd; pure (rs2, r') : M (RSet × Option R))
        (do let rs2 ← drain rd' rs1'; pure (rs2, r')) :=
      Alike.bind (drain_alike h hx) fun _ _ hy => Alike.pure ⟨hy, rfl⟩
    exact hd c1 a c' hc1 h2

theorem finish_alike {rs rs' : RSet} (hr : SetAlike rs rs') : Alike Tame never OkAlike (rs.finish rd) (finish rd' rs') := by
  unfold RSet.finish finish
  rcases hr.okPacket with ⟨h1, h2⟩ | ⟨p, p', h1, h2, hp⟩
  · rw [h1, h2]
    refine Alike.bind (drain_alike h hr) fun x x' hx => ?_
    rcases hx.okPacket with ⟨h1, h2⟩ | ⟨p, p', h1, h2, hp⟩
    · rw [h1]; exact Alike.crash _
    · rw [h1, h2]; exact Alike.pure hp
  · rw [h1, h2]
    exact Alike.pure hp

end

theorem query_alike (sql : Str) : Alike Tame Many SetAlike (Verif.query sql) (query sql) :=
  Alike.bind (executeCommand_alike _ _) fun _ _ _ => read_alike

theorem executeQuery_alike (sql : Str) : Alike Tame never OkAlike (Verif.executeQuery sql) (executeQuery sql) :=
  Alike.bind (executeCommand_alike _ _) fun _ _ _ => Alike.bind readResponse_alike fun _ _ h => okOrServerError_alike h

theorem prepare_alike (sql : Str) : Alike Tame never Eq (Verif.prepareStatement sql) (prepareStatement sql) := by
  refine Alike.bind (executeCommand_alike _ _) fun _ _ _ => Alike.read fun p hp => Alike.then Shrinks.get.keeps fun c => ?_
  cases p with
  | nil => exact Alike.fail _ _
  | cons b r =>
    refine Alike.ite ?_ (Alike.ite ?_ (Alike.fail _ _))
    · exact Alike.same ((Shrinks.ofOut _).bind fun _ => (Shrinks.skipPackets _).bind fun _ => Shrinks.pure _).keeps
    · exact Alike.bind (Alike.decode (decode_err hp)) fun _ _ _ => Alike.fail _ _

theorem sendPieces_alike (id : UInt32) (i : Nat) : ∀ ps, Alike Tame never Eq (Verif.sendPieces id i ps) (sendPieces id i ps)
  | [] => Alike.pure rfl
  | _ :: ps => Alike.bind (writeCommand_alike _) fun _ _ _ => sendPieces_alike id i ps

theorem sendLongData_alike (id : UInt32) : ∀ i vs, Alike Tame never Eq (Verif.sendLongData id i vs) (sendLongData id i vs)
  | _, [] => Alike.pure rfl
  | i, _ :: vs => Alike.bind (sendPieces_alike id i _) fun _ _ _ => sendLongData_alike id (i + 1) vs

theorem sendExecute_alike (id : UInt32) (vs : List Value) : Alike Tame never Eq (Verif.sendExecute id vs) (sendExecute id vs) :=
  Alike.then (Keeps.ofOut _) fun _ => Alike.ite
    (Alike.bind (sendLongData_alike id 0 vs) fun _ _ _ => writeCommand_alike _) (writeCommand_alike _)

theorem stmtQuery_alike (p : Prepared) (vs : List Value) : Alike Tame Many SetAlike (p.query vs) (stmtQuery p vs) :=
  Alike.ite (Alike.fail _ _) (Alike.bind (sendExecute_alike _ _) fun _ _ _ => read_alike)

theorem stmtExecute_alike (p : Prepared) (vs : List Value) : Alike Tame never OkAlike (p.execute vs) (stmtExecute p vs) :=
  Alike.ite (Alike.fail _ _) (Alike.bind (sendExecute_alike _ _) fun _ _ _ => Alike.bind readResponse_alike fun _ _ h =>
    okOrServerError_alike h)

end

end Verif.Narrow

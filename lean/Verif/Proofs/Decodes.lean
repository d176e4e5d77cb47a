import Verif.Proofs.Packets

/-! # Which bytes a decoder accepts -/

namespace Verif

/-- `p` reads a prefix that is one of the forms `G` of its result, and accepts every form. -/
def Decodes {α : Type} (p : P α) (G : α → Bytes → Prop) : Prop :=
  ∀ s x s', p s = (.ok x, s') ↔ ∃ b, G x b ∧ s = b ++ s'

namespace Decodes

theorem of_iff {α : Type} {p : P α} {G H : α → Bytes → Prop} (h : Decodes p G) (e : ∀ x b, G x b ↔ H x b) :
    Decodes p H := by
  intro s x s'
  rw [h s x s']
  simp only [e]

theorem bind {α β : Type} {p : P α} {f : α → P β} {G : α → Bytes → Prop} {H : α → β → Bytes → Prop}
    (hp : Decodes p G) (hf : ∀ a, Decodes (f a) (H a)) :
    Decodes (p >>= f) fun y b => ∃ a b1 b2, G a b1 ∧ H a y b2 ∧ b = b1 ++ b2 := by
  intro s y s''
  rw [SM.bind_eq_ok]
  constructor
  · rintro ⟨a, s', h1, h2⟩
    obtain ⟨b1, g1, rfl⟩ := (hp _ _ _).1 h1
    obtain ⟨b2, g2, rfl⟩ := (hf a _ _ _).1 h2
    exact ⟨b1 ++ b2, ⟨a, b1, b2, g1, g2, rfl⟩, by simp⟩
  · rintro ⟨_, ⟨a, b1, b2, g1, g2, rfl⟩, rfl⟩
    exact ⟨a, b2 ++ s'', (hp _ _ _).2 ⟨b1, g1, by simp⟩, (hf a _ _ _).2 ⟨b2, g2, rfl⟩⟩

theorem pure' {α : Type} (x : α) : Decodes (pure x : P α) fun y b => y = x ∧ b = [] := by
  intro s y s'
  rw [SM.pure_apply]
  constructor
  · intro h
    cases h
    exact ⟨[], ⟨rfl, rfl⟩, rfl⟩
  · rintro ⟨_, ⟨rfl, rfl⟩, rfl⟩
    rfl

theorem eat (n : Nat) : Decodes (P.eat n) fun y b => b.length = n ∧ y = b := by
  intro s y s'
  unfold P.eat
  split
  · rename_i h
    constructor
    · intro e
      cases e
      exact ⟨s.take n, ⟨by simp; omega, rfl⟩, by simp⟩
    · rintro ⟨b, ⟨rfl, rfl⟩, rfl⟩
      simp
  · rename_i h
    constructor
    · intro e
      cases e
    · rintro ⟨b, ⟨rfl, rfl⟩, rfl⟩
      simp at h

theorem checkedEat (n : Nat) : Decodes (P.checkedEat n) fun y b => b.length = n ∧ y = b := by
  intro s y s'
  unfold P.checkedEat
  split
  · exact eat n s y s'
  · rename_i h
    constructor
    · intro e
      cases e
    · rintro ⟨b, ⟨rfl, rfl⟩, rfl⟩
      simp at h

theorem map {α β : Type} {p : P α} {f : α → β} {G : α → Bytes → Prop} (hp : Decodes p G) :
    Decodes (p >>= fun a => pure (f a)) fun y b => ∃ a, G a b ∧ y = f a := by
  refine (hp.bind fun a => pure' (f a)).of_iff fun y b => ?_
  constructor
  · rintro ⟨a, b1, b2, h1, ⟨h2, rfl⟩, rfl⟩
    exact ⟨a, by simpa using h1, h2⟩
  · rintro ⟨a, h1, h2⟩
    exact ⟨a, b, [], h1, ⟨h2, rfl⟩, by simp⟩

theorem eatNat (k : Nat) : Decodes (P.eatNat k) fun y b => b.length = k ∧ y = Spec.unle b := by
  refine (map (eat k)).of_iff fun y b => ?_
  constructor
  · rintro ⟨a, ⟨h1, rfl⟩, rfl⟩
    exact ⟨h1, (spec_unle_eq _).symm⟩
  · rintro ⟨h1, rfl⟩
    exact ⟨b, ⟨h1, rfl⟩, spec_unle_eq _⟩

theorem checkedEatNat (k : Nat) : Decodes (P.checkedEatNat k) fun y b => b.length = k ∧ y = Spec.unle b := by
  refine (map (checkedEat k)).of_iff fun y b => ?_
  constructor
  · rintro ⟨a, ⟨h1, rfl⟩, rfl⟩
    exact ⟨h1, (spec_unle_eq _).symm⟩
  · rintro ⟨h1, rfl⟩
    exact ⟨b, ⟨h1, rfl⟩, spec_unle_eq _⟩

theorem unle_le (b : Bytes) : Spec.le b.length (Spec.unle b) = b := by
  rw [spec_unle_eq, spec_le_eq, leBytes_leNat]

theorem unle_lt (b : Bytes) : Spec.unle b < 256 ^ b.length := by
  rw [spec_unle_eq]
  exact leNat_lt b

theorem le_unle (k n : Nat) (h : n < 256 ^ k) : Spec.unle (Spec.le k n) = n := by
  rw [spec_unle_eq, spec_le_eq, leNat_leBytes_of_lt h]

theorem le_length (k n : Nat) : (Spec.le k n).length = k := by
  unfold Spec.le
  simp

theorem nat_of {p : P Nat} {k : Nat} (h : Decodes p fun y b => b.length = k ∧ y = Spec.unle b) {α : Type}
    (f : Nat → α) (g : α → Nat) (hg : ∀ x, g x < 256 ^ k) (hfg : ∀ x, f (g x) = x)
    (hgf : ∀ n, n < 256 ^ k → g (f n) = n) :
    Decodes (p >>= fun a => pure (f a)) fun y b => b = Spec.le k (g y) := by
  refine (map h).of_iff fun y b => ?_
  constructor
  · rintro ⟨a, ⟨rfl, rfl⟩, rfl⟩
    rw [hgf _ (unle_lt b), unle_le]
  · rintro rfl
    exact ⟨_, ⟨le_length _ _, rfl⟩, by rw [le_unle _ _ (hg y), hfg]⟩

theorem eatU8 : Decodes P.eatU8 fun y b => b = [y] := by
  refine (nat_of (eatNat 1) UInt8.ofNat UInt8.toNat (fun x => x.toNat_lt) (by simp)
    fun n h => by rw [UInt8.toNat_ofNat']; omega).of_iff fun y b => ?_
  have : Spec.le 1 y.toNat = [y] := by
    have := unle_le [y]
    simpa [Spec.unle] using this
  rw [this]

theorem checkedEatU8 : Decodes P.checkedEatU8 fun y b => b = [y] := by
  refine (nat_of (checkedEatNat 1) UInt8.ofNat UInt8.toNat (fun x => x.toNat_lt) (by simp)
    fun n h => by rw [UInt8.toNat_ofNat']; omega).of_iff fun y b => ?_
  have : Spec.le 1 y.toNat = [y] := by
    have := unle_le [y]
    simpa [Spec.unle] using this
  rw [this]

theorem eatU16 : Decodes P.eatU16 fun y b => b = Spec.le 2 y.toNat :=
  nat_of (eatNat 2) UInt16.ofNat UInt16.toNat (fun x => x.toNat_lt) (by simp)
    fun n h => by rw [UInt16.toNat_ofNat']; omega

theorem checkedEatU16 : Decodes P.checkedEatU16 fun y b => b = Spec.le 2 y.toNat :=
  nat_of (checkedEatNat 2) UInt16.ofNat UInt16.toNat (fun x => x.toNat_lt) (by simp)
    fun n h => by rw [UInt16.toNat_ofNat']; omega

theorem eatU32 : Decodes P.eatU32 fun y b => b = Spec.le 4 y.toNat :=
  nat_of (eatNat 4) UInt32.ofNat UInt32.toNat (fun x => x.toNat_lt) (by simp)
    fun n h => by rw [UInt32.toNat_ofNat']; omega

theorem checkedEatU64 : Decodes P.checkedEatU64 fun y b => b = Spec.le 8 y.toNat :=
  nat_of (checkedEatNat 8) UInt64.ofNat UInt64.toNat (fun x => x.toNat_lt) (by simp)
    fun n h => by rw [UInt64.toNat_ofNat']; omega

theorem eatU24 : Decodes P.eatU24 fun y b => y.toNat < 2 ^ 24 ∧ b = Spec.le 3 y.toNat := by
  refine (map (eatNat 3)).of_iff fun y b => ?_
  constructor
  · rintro ⟨a, ⟨h, rfl⟩, rfl⟩
    have := unle_lt b
    rw [h] at this
    have e : (UInt32.ofNat (Spec.unle b)).toNat = Spec.unle b := by rw [UInt32.toNat_ofNat']; omega
    rw [e, ← h, unle_le]
    exact ⟨by omega, rfl⟩
  · rintro ⟨h, rfl⟩
    exact ⟨_, ⟨le_length _ _, rfl⟩, by rw [le_unle _ _ (by omega)]; simp⟩

theorem checkedEatU24 : Decodes P.checkedEatU24 fun y b => y.toNat < 2 ^ 24 ∧ b = Spec.le 3 y.toNat := by
  refine (map (checkedEatNat 3)).of_iff fun y b => ?_
  constructor
  · rintro ⟨a, ⟨h, rfl⟩, rfl⟩
    have := unle_lt b
    rw [h] at this
    have e : (UInt32.ofNat (Spec.unle b)).toNat = Spec.unle b := by rw [UInt32.toNat_ofNat']; omega
    rw [e, ← h, unle_le]
    exact ⟨by omega, rfl⟩
  · rintro ⟨h, rfl⟩
    exact ⟨_, ⟨le_length _ _, rfl⟩, by rw [le_unle _ _ (by omega)]; simp⟩

theorem fail {α : Type} (e : ProtocolError) : Decodes (SM.fail e : P α) fun _ _ => False := by
  intro s x s'
  constructor
  · intro h
    cases h
  · rintro ⟨_, h, _⟩
    exact h.elim

theorem getFail {α : Type} (f : Bytes → ProtocolError) :
    Decodes (SM.get >>= fun r => (SM.fail (f r) : P α)) fun _ _ => False := by
  intro s x s'
  constructor
  · intro h
    cases h
  · rintro ⟨_, h, _⟩
    exact h.elim

theorem ofOut {α : Type} (o : Out ProtocolError α) : Decodes (SM.ofOut o) fun y b => o = .ok y ∧ b = [] := by
  intro s x s'
  unfold SM.ofOut
  constructor
  · intro h
    injection h with h1 h2
    exact ⟨[], ⟨h1, rfl⟩, h2⟩
  · rintro ⟨_, ⟨rfl, rfl⟩, rfl⟩
    rfl

theorem ite {α : Type} (c : Prop) [Decidable c] {p q : P α} {G H : α → Bytes → Prop} (hp : Decodes p G)
    (hq : Decodes q H) : Decodes (if c then p else q) fun y b => (c ∧ G y b) ∨ (¬c ∧ H y b) := by
  by_cases hc : c
  · rw [if_pos hc]
    exact hp.of_iff fun y b => by simp [hc]
  · rw [if_neg hc]
    exact hq.of_iff fun y b => by simp [hc]

/-- the same for sufficiently long inputs. -/
def From {α : Type} (n : Nat) (p : P α) (G : α → Bytes → Prop) : Prop :=
  ∀ s x s', n ≤ s.length → (p s = (.ok x, s') ↔ ∃ b, G x b ∧ s = b ++ s')

theorem from' {α : Type} {p : P α} {G : α → Bytes → Prop} (h : Decodes p G) (n : Nat) : From n p G :=
  fun s x s' _ => h s x s'

theorem From.of_iff {α : Type} {n : Nat} {p : P α} {G H : α → Bytes → Prop} (h : From n p G)
    (e : ∀ x b, G x b ↔ H x b) : From n p H := by
  intro s x s' hn
  rw [h s x s' hn]
  simp only [e]

theorem From.bind {α β : Type} {n k : Nat} {p : P α} {f : α → P β} {G : α → Bytes → Prop}
    {H : α → β → Bytes → Prop} (hp : From n p G) (hk : ∀ x b, G x b → b.length = k)
    (hf : ∀ a, From (n - k) (f a) (H a)) :
    From n (p >>= f) fun y b => ∃ a b1 b2, G a b1 ∧ H a y b2 ∧ b = b1 ++ b2 := by
  intro s y s'' hn
  rw [SM.bind_eq_ok]
  constructor
  · rintro ⟨a, s', h1, h2⟩
    obtain ⟨b1, g1, rfl⟩ := (hp _ _ _ hn).1 h1
    have := hk a b1 g1
    rw [List.length_append] at hn
    obtain ⟨b2, g2, rfl⟩ := (hf a _ _ _ (by omega)).1 h2
    exact ⟨b1 ++ b2, ⟨a, b1, b2, g1, g2, rfl⟩, by simp⟩
  · rintro ⟨_, ⟨a, b1, b2, g1, g2, rfl⟩, rfl⟩
    have := hk a b1 g1
    simp only [List.length_append] at hn
    exact ⟨a, b2 ++ s'', (hp _ _ _ (by simp only [List.length_append]; omega)).2 ⟨b1, g1, by simp⟩,
      (hf a _ _ _ (by simp only [List.length_append]; omega)).2 ⟨b2, g2, rfl⟩⟩

theorem From.ite {α : Type} {n : Nat} (c : Prop) [Decidable c] {p q : P α} {G H : α → Bytes → Prop}
    (hp : From n p G) (hq : From n q H) :
    From n (if c then p else q) fun y b => (c ∧ G y b) ∨ (¬c ∧ H y b) := by
  by_cases hc : c
  · rw [if_pos hc]
    exact hp.of_iff fun y b => by simp [hc]
  · rw [if_neg hc]
    exact hq.of_iff fun y b => by simp [hc]

theorem skip (n k : Nat) (h : k ≤ n) : From n (P.skip k) fun _ b => b.length = k := by
  intro s x s' hn
  unfold P.skip SM.modify
  constructor
  · intro e
    cases e
    refine ⟨s.take k, by dsimp only; rw [List.length_take]; omega, ?_⟩
    dsimp only
    rw [Nat.min_eq_left (by omega), List.take_append_drop]
  · rintro ⟨b, rfl, rfl⟩
    simp

/-- a check of the length in front of a decoder that needs as much. -/
theorem From.checkLen {α : Type} {p : P α} {G : α → Bytes → Prop} {n : Nat} (hp : From n p G)
    (hn : ∀ x b, G x b → n ≤ b.length) : Decodes (P.checkLen n >>= fun _ => p) G := by
  intro s x s'
  rw [SM.bind_eq_ok]
  constructor
  · rintro ⟨_, s1, h1, h2⟩
    unfold P.checkLen at h1
    split at h1
    · cases h1
    · cases h1
      exact (hp _ _ _ (by omega)).1 h2
  · rintro ⟨b, hb, rfl⟩
    have := hn x b hb
    have hl : n ≤ (b ++ s').length := by
      simp only [List.length_append]
      omega
    refine ⟨(), b ++ s', ?_, (hp _ _ _ hl).2 ⟨b, hb, rfl⟩⟩
    unfold P.checkLen
    rw [if_neg (by omega)]

/-- the same for a function whose end is the end of the packet. -/
def Ends {α : Type} (p : P α) (G : α → Bytes → Prop) : Prop := ∀ s x, runP p s = .ok x ↔ G x s

theorem Ends.of_iff {α : Type} {p : P α} {G H : α → Bytes → Prop} (h : Ends p G) (e : ∀ x b, G x b ↔ H x b) :
    Ends p H := by
  intro s x
  rw [h s x, e]

theorem bindEnds {α β : Type} {p : P α} {f : α → P β} {G : α → Bytes → Prop} {H : α → β → Bytes → Prop}
    (hp : Decodes p G) (hf : ∀ a, Ends (f a) (H a)) :
    Ends (p >>= f) fun y b => ∃ a b1 b2, G a b1 ∧ H a y b2 ∧ b = b1 ++ b2 := by
  intro s y
  constructor
  · intro h
    obtain ⟨a, s', h1, h2⟩ := SM.bind_eq_ok.1 (Prod.ext h rfl : (p >>= f) s = (.ok y, ((p >>= f) s).2))
    obtain ⟨b, hb, rfl⟩ := (hp _ _ _).1 h1
    refine ⟨a, b, s', hb, (hf a s' y).1 ?_, rfl⟩
    show (f a s').1 = _
    rw [h2]
  · rintro ⟨a, b1, b2, h1, h2, rfl⟩
    show ((p >>= f) (b1 ++ b2)).1 = _
    rw [SM.bind_of_ok ((hp _ _ _).2 ⟨b1, h1, rfl⟩)]
    exact (hf a b2 y).2 h2

theorem Ends.ite {α : Type} (c : Prop) [Decidable c] {p q : P α} {G H : α → Bytes → Prop} (hp : Ends p G)
    (hq : Ends q H) : Ends (if c then p else q) fun y b => (c ∧ G y b) ∨ (¬c ∧ H y b) := by
  by_cases hc : c
  · rw [if_pos hc]
    exact hp.of_iff fun y b => by simp [hc]
  · rw [if_neg hc]
    exact hq.of_iff fun y b => by simp [hc]

theorem Ends.getFail {α : Type} (f : Bytes → ProtocolError) :
    Ends (SM.get >>= fun r => (SM.fail (f r) : P α)) fun _ _ => False := by
  intro s x
  constructor
  · intro h
    cases h
  · exact False.elim

theorem Ends.checkLen {α : Type} {p : P α} {G : α → Bytes → Prop} {n : Nat} (hp : Ends p G)
    (hn : ∀ x b, G x b → n ≤ b.length) : Ends (P.checkLen n >>= fun _ => p) G := by
  intro s x
  by_cases h : s.length < n
  · constructor
    · intro e
      have : P.checkLen n s = (.err .eof, s) := by unfold P.checkLen; rw [if_pos h]
      unfold runP at e
      rw [SM.bind_of_err this] at e
      cases e
    · intro e
      exact absurd (hn x s e) (by omega)
  · have : P.checkLen n s = (.ok (), s) := by unfold P.checkLen; rw [if_neg h]
    rw [← hp s x]
    unfold runP
    rw [SM.bind_of_ok this]

/-- the same for sufficiently long inputs. -/
def EndsFrom {α : Type} (n : Nat) (p : P α) (G : α → Bytes → Prop) : Prop :=
  ∀ s x, n ≤ s.length → (runP p s = .ok x ↔ G x s)

theorem Ends.from' {α : Type} {p : P α} {G : α → Bytes → Prop} (h : Ends p G) (n : Nat) : EndsFrom n p G :=
  fun s x _ => h s x

theorem EndsFrom.of_iff {α : Type} {n : Nat} {p : P α} {G H : α → Bytes → Prop} (h : EndsFrom n p G)
    (e : ∀ x b, G x b ↔ H x b) : EndsFrom n p H := by
  intro s x hn
  rw [h s x hn, e]

theorem From.bindEnds {α β : Type} {n k : Nat} {p : P α} {f : α → P β} {G : α → Bytes → Prop}
    {H : α → β → Bytes → Prop} (hp : From n p G) (hk : ∀ x b, G x b → b.length = k)
    (hf : ∀ a, EndsFrom (n - k) (f a) (H a)) :
    EndsFrom n (p >>= f) fun y b => ∃ a b1 b2, G a b1 ∧ H a y b2 ∧ b = b1 ++ b2 := by
  intro s y hn
  constructor
  · intro h
    obtain ⟨a, s', h1, h2⟩ := SM.bind_eq_ok.1 (Prod.ext h rfl : (p >>= f) s = (.ok y, ((p >>= f) s).2))
    obtain ⟨b, hb, rfl⟩ := (hp _ _ _ hn).1 h1
    have hl := hk a b hb
    rw [List.length_append] at hn
    refine ⟨a, b, s', hb, (hf a s' y (by omega)).1 ?_, rfl⟩
    show (f a s').1 = _
    rw [h2]
  · rintro ⟨a, b1, b2, h1, h2, rfl⟩
    show ((p >>= f) (b1 ++ b2)).1 = _
    have hl := hk a b1 h1
    rw [SM.bind_of_ok ((hp _ _ _ hn).2 ⟨b1, h1, rfl⟩)]
    rw [List.length_append] at hn
    exact (hf a b2 y (by omega)).2 h2

theorem EndsFrom.checkLen {α : Type} {p : P α} {G : α → Bytes → Prop} {n : Nat} (hp : EndsFrom n p G)
    (hn : ∀ x b, G x b → n ≤ b.length) : Ends (P.checkLen n >>= fun _ => p) G := by
  intro s x
  by_cases h : s.length < n
  · constructor
    · intro e
      have : P.checkLen n s = (.err .eof, s) := by unfold P.checkLen; rw [if_pos h]
      unfold runP at e
      rw [SM.bind_of_err this] at e
      cases e
    · intro e
      exact absurd (hn x s e) (by omega)
  · have : P.checkLen n s = (.ok (), s) := by unfold P.checkLen; rw [if_neg h]
    rw [← hp s x (by omega)]
    unfold runP
    rw [SM.bind_of_ok this]

theorem ends {α : Type} {p : P α} {G : α → Bytes → Prop} (h : Decodes p G) :
    Ends p fun x s => ∃ b r, G x b ∧ s = b ++ r := by
  intro bs x
  unfold runP
  constructor
  · intro e
    obtain ⟨b, hb, hs⟩ := (h bs x (p bs).2).1 (Prod.ext e rfl)
    exact ⟨b, _, hb, hs⟩
  · rintro ⟨b, r, hb, rfl⟩
    rw [(h (b ++ r) x r).2 ⟨b, hb, rfl⟩]

/-- the end of what `p` reads is the end of the input, if the input is one of its forms. -/
theorem run {α : Type} {p : P α} {G : α → Bytes → Prop} (h : Decodes p G) (bs : Bytes) (x : α) :
    runP p bs = .ok x ↔ ∃ b r, G x b ∧ bs = b ++ r := by
  unfold runP
  constructor
  · intro e
    obtain ⟨b, hb, hs⟩ := (h bs x (p bs).2).1 (Prod.ext e rfl)
    exact ⟨b, _, hb, hs⟩
  · rintro ⟨b, r, hb, rfl⟩
    rw [(h _ _ _).2 ⟨b, hb, rfl⟩]

end Decodes

end Verif

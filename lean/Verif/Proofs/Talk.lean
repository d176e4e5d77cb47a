import Verif.Spec.LoginStream
import Verif.Props.C77_AnyState

/-!
# Programs as relations between conversations and outcomes

`Does m R`: `m` has an outcome exactly if `R` relates it to what goes over the stream. Outcomes of interest are values,
errors of the server, and panics; what the client finds wrong by itself is not described.
-/

namespace Verif

open Spec (Turn Talk Put)

theorem Talk.append (c : Conn) (xs ys : List Turn) (c' : Conn) :
    Talk c (xs ++ ys) c' ↔ ∃ c1, Talk c xs c1 ∧ Talk c1 ys c' := by
  induction xs generalizing c with
  | nil =>
    constructor
    · intro h
      exact ⟨c, rfl, h⟩
    · rintro ⟨c1, h1, h2⟩
      cases h1
      exact h2
  | cons x xs ih =>
    cases x with
    | got p =>
      simp only [List.cons_append, Talk, ih]
      constructor
      · rintro ⟨c1, h1, c2, h2, h3⟩
        exact ⟨c2, ⟨c1, h1, h2⟩, h3⟩
      · rintro ⟨c2, ⟨c1, h1, h2⟩, h3⟩
        exact ⟨c1, h1, c2, h2, h3⟩
    | put m =>
      simp only [List.cons_append, Talk, ih]
      constructor
      · rintro ⟨c1, h1, c2, h2, h3⟩
        exact ⟨c2, ⟨c1, h1, h2⟩, h3⟩
      · rintro ⟨c2, ⟨c1, h1, h2⟩, h3⟩
        exact ⟨c1, h1, c2, h2, h3⟩

theorem Took.setData (c : Conn) (d : ConnData) (ps : List Bytes) (c' : Conn) :
    Spec.Took { c with data := d } ps c' ↔ ∃ c1, Spec.Took c ps c1 ∧ c' = { c1 with data := d } := by
  unfold Spec.Took
  constructor
  · rintro ⟨rest, h, rfl⟩
    exact ⟨_, ⟨rest, h, rfl⟩, rfl⟩
  · rintro ⟨_, ⟨rest, h, rfl⟩, rfl⟩
    exact ⟨rest, h, rfl⟩

theorem Put.setData (c : Conn) (d : ConnData) (m : Bytes) (c' : Conn) :
    Put { c with data := d } m c' ↔ ∃ c1, Put c m c1 ∧ c' = { c1 with data := d } := by
  unfold Put
  constructor
  · rintro ⟨h, rfl⟩
    exact ⟨_, ⟨h, rfl⟩, rfl⟩
  · rintro ⟨_, ⟨h, rfl⟩, rfl⟩
    exact ⟨h, rfl⟩

theorem Talk.setData (c : Conn) (d : ConnData) (es : List Turn) (c' : Conn) :
    Talk { c with data := d } es c' ↔ ∃ c1, Talk c es c1 ∧ c' = { c1 with data := d } := by
  induction es generalizing c with
  | nil =>
    constructor
    · intro h
      exact ⟨c, rfl, h⟩
    · rintro ⟨c1, h, rfl⟩
      cases h
      rfl
  | cons x xs ih =>
    cases x with
    | got p =>
      constructor
      · rintro ⟨c1, h1, h2⟩
        obtain ⟨c2, h3, rfl⟩ := (Took.setData _ _ _ _).1 h1
        obtain ⟨c3, h4, rfl⟩ := (ih _).1 h2
        exact ⟨c3, ⟨c2, h3, h4⟩, rfl⟩
      · rintro ⟨c3, ⟨c2, h3, h4⟩, rfl⟩
        exact ⟨_, (Took.setData _ _ _ _).2 ⟨c2, h3, rfl⟩, (ih _).2 ⟨c3, h4, rfl⟩⟩
    | put m =>
      constructor
      · rintro ⟨c1, h1, h2⟩
        obtain ⟨c2, h3, rfl⟩ := (Put.setData _ _ _ _).1 h1
        obtain ⟨c3, h4, rfl⟩ := (ih _).1 h2
        exact ⟨c3, ⟨c2, h3, h4⟩, rfl⟩
      · rintro ⟨c3, ⟨c2, h3, h4⟩, rfl⟩
        exact ⟨_, (Put.setData _ _ _ _).2 ⟨c2, h3, rfl⟩, (ih _).2 ⟨c3, h4, rfl⟩⟩

theorem Talk.keeps {c c' : Conn} {es : List Turn} (h : Talk c es c') :
    c'.data = c.data ∧ c'.options = c.options ∧ c'.pendingResult = c.pendingResult := by
  induction es generalizing c with
  | nil =>
    cases h
    exact ⟨rfl, rfl, rfl⟩
  | cons x xs ih =>
    cases x with
    | got p =>
      obtain ⟨c1, ⟨rest, _, rfl⟩, h2⟩ := h
      have := ih h2
      exact this
    | put m =>
      obtain ⟨c1, ⟨_, rfl⟩, h2⟩ := h
      have := ih h2
      exact this

/-- the outcomes described. -/
inductive Tell (α : Type) where
  | ok (a : α)
  | server (e : ErrPacket)
  | panic

def Tell.out {α : Type} : Tell α → Out Error α
  | .ok a => .ok a
  | .server e => .err (.server e)
  | .panic => .panic

/-- what is relevant before, what goes over the stream, the outcome, what is known afterwards. -/
abbrev Rel (α : Type) := Options → ConnData → List Turn → Tell α → ConnData → Prop

def Does {α : Type} (m : M α) (R : Rel α) : Prop :=
  ∀ c t c', m c = (t.out, c') ↔
    ∃ es d' c1, Talk c es c1 ∧ R c.options c.data es t d' ∧ c' = { c1 with data := d' }

namespace Does

variable {α β : Type}

theorem weaken {m : M α} {R R' : Rel α} (h : Does m R) (hr : ∀ o d es t d', R o d es t d' ↔ R' o d es t d') :
    Does m R' := by
  intro c t c'
  rw [h c t c']
  simp only [hr]

/-- nothing goes over the stream, nothing is learned. -/
theorem still {m : M α} {Q : Tell α → Prop} (h : ∀ c t c', m c = (t.out, c') ↔ Q t ∧ c' = c) :
    Does m fun _ d es t d' => es = [] ∧ Q t ∧ d' = d := by
  intro c t c'
  rw [h]
  constructor
  · rintro ⟨hq, rfl⟩
    exact ⟨[], c'.data, c', rfl, ⟨rfl, hq, rfl⟩, rfl⟩
  · rintro ⟨_, _, c1, h1, ⟨rfl, hq, rfl⟩, rfl⟩
    cases h1
    exact ⟨hq, rfl⟩

theorem pure (a : α) : Does (Pure.pure a : M α) fun _ d es t d' => es = [] ∧ t = .ok a ∧ d' = d :=
  still (Q := fun t => t = .ok a) fun c t c' => by
    cases t with
    | ok b =>
      constructor
      · intro h
        cases h
        exact ⟨rfl, rfl⟩
      · rintro ⟨h, rfl⟩
        cases h
        rfl
    | server e => exact ⟨(fun h => by cases h), (fun h => by cases h.1)⟩
    | panic => exact ⟨(fun h => by cases h), (fun h => by cases h.1)⟩

theorem crash : Does (SM.crash : M α) fun _ d es t d' => es = [] ∧ t = .panic ∧ d' = d :=
  still (Q := fun t => t = .panic) fun c t c' => by
    cases t with
    | ok b => exact ⟨(fun h => by cases h), (fun h => by cases h.1)⟩
    | server e => exact ⟨(fun h => by cases h), (fun h => by cases h.1)⟩
    | panic =>
      constructor
      · intro h
        cases h
        exact ⟨rfl, rfl⟩
      · rintro ⟨_, rfl⟩
        rfl

theorem refuse (e : ErrPacket) :
    Does (SM.fail (.server e) : M α) fun _ d es t d' => es = [] ∧ t = .server e ∧ d' = d :=
  still (Q := fun t => t = .server e) fun c t c' => by
    cases t with
    | ok b => exact ⟨(fun h => by cases h), (fun h => by cases h.1)⟩
    | server e' =>
      constructor
      · intro h
        cases h
        exact ⟨rfl, rfl⟩
      · rintro ⟨h, rfl⟩
        cases h
        rfl
    | panic => exact ⟨(fun h => by cases h), (fun h => by cases h.1)⟩

/-- errors of the client itself are not described. -/
theorem fail (e : ProtocolError) : Does (SM.fail (.protocol e) : M α) fun _ _ _ _ _ => False := by
  intro c t c'
  constructor
  · intro h
    cases t <;> cases h
  · rintro ⟨_, _, _, _, h, _⟩
    exact h.elim

/-- a step that is done without the stream. -/
theorem ofOut {x : Out Error α} (hx : ∀ e, x ≠ .err (.server e)) :
    Does (SM.ofOut x) fun _ d es t d' => es = [] ∧ (x = t.out ∧ ∀ e, t ≠ .server e) ∧ d' = d :=
  still (Q := fun t => x = t.out ∧ ∀ e, t ≠ .server e) fun c t c' => by
    show (x, c) = (t.out, c') ↔ _
    rw [Prod.mk.injEq]
    constructor
    · rintro ⟨h1, h2⟩
      refine ⟨⟨h1, ?_⟩, h2.symm⟩
      rintro e rfl
      exact hx e h1
    · rintro ⟨⟨h1, _⟩, rfl⟩
      exact ⟨h1, rfl⟩

theorem modify {f : Conn → Conn} (g : Options → ConnData → ConnData)
    (hf : ∀ c, f c = { c with data := g c.options c.data }) :
    Does (SM.modify f) fun o d es t d' => es = [] ∧ t = .ok () ∧ d' = g o d := by
  intro c t c'
  show (Out.ok (), f c) = (t.out, c') ↔ _
  rw [Prod.mk.injEq, hf]
  constructor
  · rintro ⟨h1, rfl⟩
    refine ⟨[], _, c, rfl, ⟨rfl, ?_, rfl⟩, rfl⟩
    cases t with
    | ok a => cases a; rfl
    | server e => cases h1
    | panic => cases h1
  · rintro ⟨_, _, c1, h1, ⟨rfl, rfl, rfl⟩, rfl⟩
    cases h1
    exact ⟨rfl, rfl⟩

theorem read : Does readPacket fun _ d es t d' => ∃ p, es = [.got p] ∧ t = .ok p ∧ d' = d := by
  intro c t c'
  cases t with
  | ok p =>
    show readPacket c = (.ok p, c') ↔ _
    rw [C76_packet]
    constructor
    · intro h
      refine ⟨[.got p], c.data, c', ⟨c', h, rfl⟩, ⟨p, rfl, rfl, rfl⟩, ?_⟩
      rw [← Took.caps h]
    · rintro ⟨_, _, c1, h0, ⟨_, rfl, h3, rfl⟩, rfl⟩
      obtain ⟨c2, h1, h2⟩ := h0
      cases h3
      cases h2
      rw [← Took.caps h1]
      exact h1
  | server e =>
    constructor
    · intro h
      exact absurd h (Local.readPacket c c' e)
    · rintro ⟨_, _, c1, _, ⟨_, _, h3, _⟩, _⟩
      cases h3
  | panic =>
    constructor
    · intro h
      exact absurd (congrArg Prod.fst h) (readPacket_not_panic c)
    · rintro ⟨_, _, c1, _, ⟨_, _, h3, _⟩, _⟩
      cases h3

theorem write (m : Bytes) : Does (writePacket m) fun _ d es t d' => es = [.put m] ∧ t = .ok () ∧ d' = d := by
  intro c t c'
  cases t with
  | ok a =>
    cases a
    show writePacket m c = (.ok (), c') ↔ _
    rw [writePacket_iff]
    constructor
    · rintro ⟨h1, rfl⟩
      exact ⟨[.put m], c.data, _, ⟨_, ⟨h1, rfl⟩, rfl⟩, ⟨rfl, rfl, rfl⟩, rfl⟩
    · rintro ⟨_, _, c1, h, ⟨rfl, _, rfl⟩, rfl⟩
      obtain ⟨c2, ⟨h1, rfl⟩, h2⟩ := h
      cases h2
      exact ⟨h1, rfl⟩
  | server e =>
    constructor
    · intro h
      exact absurd h (Local.writePacket m c c' e)
    · rintro ⟨_, _, c1, _, ⟨_, h3, _⟩, _⟩
      cases h3
  | panic =>
    constructor
    · intro h
      obtain ⟨t, f, s, o, h1, _, h2⟩ := writePacket_gen m c
      rw [h1] at h
      rcases h2 with ⟨rfl, _⟩ | ⟨e, rfl⟩ <;> cases h
    · rintro ⟨_, _, c1, _, ⟨_, h3, _⟩, _⟩
      cases h3

/-- one after the other. -/
def Then (R : Rel α) (S : α → Rel β) : Rel β := fun o d es t d' =>
  (∃ e, t = .server e ∧ R o d es (.server e) d') ∨ (t = .panic ∧ R o d es .panic d') ∨
  ∃ a xs ys d1, es = xs ++ ys ∧ R o d xs (.ok a) d1 ∧ S a o d1 ys t d'

theorem bind {m : M α} {k : α → M β} {R : Rel α} {S : α → Rel β} (hm : Does m R) (hk : ∀ a, Does (k a) (S a)) :
    Does (m >>= k) (Then R S) := by
  intro c t c'
  constructor
  · intro h
    cases hmc : m c with
    | mk o c1 =>
      cases o with
      | ok a =>
        rw [SM.bind_of_ok hmc] at h
        obtain ⟨xs, d1, c2, h1, h2, rfl⟩ := (hm c (.ok a) c1).1 hmc
        obtain ⟨ys, d2, c3, h3, h4, rfl⟩ := (hk a _ _ _).1 h
        obtain ⟨c4, h5, rfl⟩ := (Talk.setData _ _ _ _).1 h3
        refine ⟨xs ++ ys, d2, c4, (Talk.append _ _ _ _).2 ⟨c2, h1, h5⟩, Or.inr (Or.inr ⟨a, xs, ys, d1, rfl, h2, ?_⟩), rfl⟩
        have := (Talk.keeps h1).2.1
        rw [← this]
        exact h4
      | err e =>
        rw [SM.bind_of_err hmc] at h
        cases t with
        | ok b => cases h
        | server e' =>
          cases h
          obtain ⟨xs, d1, c2, h1, h2, rfl⟩ := (hm c (.server e') _).1 hmc
          exact ⟨xs, d1, c2, h1, Or.inl ⟨e', rfl, h2⟩, rfl⟩
        | panic => cases h
      | panic =>
        rw [SM.bind_of_panic hmc] at h
        cases t with
        | ok b => cases h
        | server e' => cases h
        | panic =>
          cases h
          obtain ⟨xs, d1, c2, h1, h2, rfl⟩ := (hm c .panic _).1 hmc
          exact ⟨xs, d1, c2, h1, Or.inr (Or.inl ⟨rfl, h2⟩), rfl⟩
  · rintro ⟨es, d', c1, h1, h2, rfl⟩
    rcases h2 with ⟨e, rfl, h2⟩ | ⟨rfl, h2⟩ | ⟨a, xs, ys, d1, rfl, h2, h3⟩
    · exact SM.bind_of_err ((hm c (.server e) _).2 ⟨es, d', c1, h1, h2, rfl⟩)
    · exact SM.bind_of_panic ((hm c .panic _).2 ⟨es, d', c1, h1, h2, rfl⟩)
    · obtain ⟨c2, h4, h5⟩ := (Talk.append _ _ _ _).1 h1
      rw [SM.bind_of_ok ((hm c (.ok a) _).2 ⟨xs, d1, c2, h4, h2, rfl⟩)]
      refine (hk a _ _ _).2 ⟨ys, d', _, (Talk.setData _ _ _ _).2 ⟨c1, h5, rfl⟩, ?_, rfl⟩
      have := (Talk.keeps h4).2.1
      show S a c2.options d1 ys t d'
      rw [this]
      exact h3

/-- a packet is read first. -/
theorem read_bind {k : Bytes → M β} {S : Bytes → Rel β} (hk : ∀ p, Does (k p) (S p)) :
    Does (readPacket >>= k) fun o d es t d' => ∃ p ys, es = .got p :: ys ∧ S p o d ys t d' :=
  (bind read hk).weaken fun o d es t d' => by
    constructor
    · rintro (⟨e, rfl, p, _, h, _⟩ | ⟨rfl, p, _, h, _⟩ | ⟨a, xs, ys, d1, rfl, ⟨p, rfl, h, rfl⟩, h2⟩)
      · cases h
      · cases h
      · cases h
        exact ⟨_, ys, rfl, h2⟩
    · rintro ⟨p, ys, rfl, h⟩
      exact Or.inr (Or.inr ⟨p, [.got p], ys, d, rfl, ⟨p, rfl, rfl, rfl⟩, h⟩)

/-- a packet is written first. -/
theorem write_bind {m : Bytes} {k : Unit → M β} {S : Rel β} (hk : Does (k ()) S) :
    Does (writePacket m >>= k) fun o d es t d' => ∃ ys, es = .put m :: ys ∧ S o d ys t d' :=
  (bind (S := fun _ => S) (write m) (fun _ => hk)).weaken fun o d es t d' => by
    constructor
    · rintro (⟨e, rfl, _, h, _⟩ | ⟨rfl, _, h, _⟩ | ⟨a, xs, ys, d1, rfl, ⟨rfl, h, rfl⟩, h2⟩)
      · cases h
      · cases h
      · exact ⟨ys, rfl, h2⟩
    · rintro ⟨ys, rfl, h⟩
      exact Or.inr (Or.inr ⟨(), [.put m], ys, d, rfl, ⟨rfl, rfl, rfl⟩, h⟩)

theorem modify_bind {f : Conn → Conn} (g : Options → ConnData → ConnData)
    (hf : ∀ c, f c = { c with data := g c.options c.data }) {k : Unit → M β} {S : Rel β} (hk : Does (k ()) S) :
    Does (SM.modify f >>= k) fun o d es t d' => S o (g o d) es t d' :=
  (bind (S := fun _ => S) (modify g hf) (fun _ => hk)).weaken fun o d es t d' => by
    constructor
    · rintro (⟨e, rfl, _, h, _⟩ | ⟨rfl, _, h, _⟩ | ⟨a, xs, ys, d1, rfl, ⟨rfl, h, rfl⟩, h2⟩)
      · cases h
      · cases h
      · exact h2
    · intro h
      exact Or.inr (Or.inr ⟨(), [], es, _, rfl, ⟨rfl, rfl, rfl⟩, h⟩)

/-- something is worked out first. -/
theorem ofOut_bind {x : Out Error α} (hx : ∀ e, x ≠ .err (.server e)) {k : α → M β} {S : α → Rel β}
    (hk : ∀ a, Does (k a) (S a)) :
    Does (SM.ofOut x >>= k) fun o d es t d' =>
      (x = .panic ∧ es = [] ∧ t = .panic ∧ d' = d) ∨ ∃ a, x = .ok a ∧ S a o d es t d' :=
  (bind (ofOut hx) hk).weaken fun o d es t d' => by
    constructor
    · rintro (⟨e, rfl, _, ⟨_, h⟩, _⟩ | ⟨rfl, rfl, ⟨h, _⟩, rfl⟩ | ⟨a, xs, ys, d1, rfl, ⟨rfl, ⟨h, _⟩, rfl⟩, h2⟩)
      · exact absurd rfl (h e)
      · exact Or.inl ⟨h, rfl, rfl, rfl⟩
      · exact Or.inr ⟨a, h, h2⟩
    · rintro (⟨h, rfl, rfl, rfl⟩ | ⟨a, h, h2⟩)
      · exact Or.inr (Or.inl ⟨rfl, rfl, ⟨h, fun e h => by cases h⟩, rfl⟩)
      · exact Or.inr (Or.inr ⟨a, [], es, d, rfl, ⟨rfl, ⟨h, fun e h => by cases h⟩, rfl⟩, h2⟩)

/-- the program depends on what is known. -/
theorem get_bind {k : Conn → M β} (f : Options → ConnData → M β) (hf : ∀ c, k c = f c.options c.data)
    {S : Options → ConnData → Rel β} (hk : ∀ o d, Does (f o d) (S o d)) :
    Does (SM.get >>= k) fun o d es t d' => S o d o d es t d' := by
  intro c t c'
  rw [SM.get_bind_apply, hf]
  exact hk _ _ c t c'

theorem ite {p : Prop} [Decidable p] {x y : M α} {R S : Rel α} (hx : Does x R) (hy : Does y S) :
    Does (if p then x else y) fun o d es t d' => if p then R o d es t d' else S o d es t d' := by
  by_cases h : p
  · simpa only [if_pos h] using hx
  · simpa only [if_neg h] using hy

end Does

end Verif

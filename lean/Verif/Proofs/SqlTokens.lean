import Verif.Spec.SqlTokens
import Verif.Proofs.Display

/-! # Lemmas: reading the tokens of a statement -/

namespace Verif

/-- `s` reads as `ts`, with any sufficient bound. -/
def Reads (s : Str) (ts : List Spec.Tok) : Prop := ∀ n, s.length ≤ n → Spec.toksN n s = some ts

theorem Reads.tokens {s : Str} {ts : List Spec.Tok} (h : Reads s ts) : Spec.tokens s = some ts :=
  h _ (Nat.le_refl _)

theorem Reads.nil : Reads [] [] := by
  intro n _
  cases n <;> rfl

theorem Reads.blank {s : Str} {ts : List Spec.Tok} (h : Reads s ts) : Reads (' ' :: s) ts := by
  intro n hn
  cases n with
  | zero => simp at hn
  | succ n =>
    rw [Spec.toksN, if_pos (by decide)]
    exact h n (by simpa using hn)

theorem Reads.newline {s : Str} {ts : List Spec.Tok} (h : Reads s ts) : Reads ('\n' :: s) ts := by
  intro n hn
  cases n with
  | zero => simp at hn
  | succ n =>
    rw [Spec.toksN, if_pos (by decide)]
    exact h n (by simpa using hn)

/-- a token and the rest. -/
theorem Reads.tok {s rest : Str} {t : Spec.Tok} {ts : List Spec.Tok}
    (hb : ∀ c ∈ s.head?, Spec.isBlank c = false)
    (ht : Spec.tok s = some (t, rest)) (hl : rest.length < s.length) (h : Reads rest ts) :
    Reads s (t :: ts) := by
  intro n hn
  match s, n with
  | [], _ => cases ht
  | c :: r, 0 => simp at hn
  | c :: r, n + 1 =>
    rw [Spec.toksN, if_neg (by rw [hb c rfl]; decide), ht]
    dsimp only
    rw [h n (by omega)]
    rfl

theorem Reads.punct {s : Str} {ts : List Spec.Tok} (c : Char) (hc : c ∈ Spec.puncts) (h : Reads s ts) :
    Reads (c :: s) (.punct c :: ts) := by
  have : ∀ c ∈ Spec.puncts, Spec.isBlank c = false ∧ c ≠ '"' ∧ c ≠ '\'' ∧ c ≠ '`' ∧
      Spec.isDigit c = false ∧ Spec.isIdentChar c = false := by decide
  obtain ⟨h0, h1, h2, h3, h4, h5⟩ := this c hc
  refine Reads.tok (rest := s) (fun d hd => ?_) ?_ (by simp) h
  · cases hd; exact h0
  · rw [Spec.tok, if_neg h1, if_neg h2, if_neg h3, h4, h5]
    simp [hc]

theorem lexIdent_plain (s r : Str) (hs : '`' ∉ s) (h : r.head? ≠ some '`') :
    Spec.lexIdent (s ++ '`' :: r) = some (s, r) := by
  induction s with
  | nil =>
    rw [List.nil_append, Spec.lexIdent.eq_def]
    dsimp only
    rw [if_pos rfl]
    cases r with
    | nil => rfl
    | cons d r => dsimp only; rw [if_neg (by simpa using h)]
  | cons c s ih =>
    have hc : c ≠ '`' := fun hh => hs (by rw [hh]; simp)
    rw [List.cons_append, Spec.lexIdent.eq_def]
    dsimp only
    rw [if_neg hc, ih fun hh => hs (List.mem_cons_of_mem _ hh)]
    rfl

/-- a quoted identifier. -/
theorem Reads.name {s : Str} {ts : List Spec.Tok} (n : Str) (hn : '`' ∉ n) (hs : s.head? ≠ some '`')
    (h : Reads s ts) : Reads ('`' :: (n ++ '`' :: s)) (.name n :: ts) := by
  refine Reads.tok (rest := s) (fun d hd => ?_) ?_ (by simp; omega) h
  · cases hd; decide
  · rw [Spec.tok, if_neg (by decide), if_neg (by decide), if_pos rfl, lexIdent_plain n s hn hs]
    rfl

theorem lexString_plain (s r : Str) (hq : '"' ∉ s) (hb : '\\' ∉ s) (h : r.head? ≠ some '"') :
    Spec.lexString '"' (s ++ '"' :: r) = some (s, r) := by
  induction s with
  | nil =>
    rw [List.nil_append, Spec.lexString.eq_def]
    dsimp only
    rw [if_neg (by decide), if_pos rfl]
    cases r with
    | nil => rfl
    | cons d r => dsimp only; rw [if_neg (by simpa using h)]
  | cons c s ih =>
    have hc : c ≠ '"' := fun hh => hq (by rw [hh]; simp)
    have hc' : c ≠ '\\' := fun hh => hb (by rw [hh]; simp)
    rw [List.cons_append, Spec.lexString.eq_def]
    dsimp only
    rw [if_neg hc', if_neg hc, ih (fun hh => hq (List.mem_cons_of_mem _ hh))
      (fun hh => hb (List.mem_cons_of_mem _ hh))]
    rfl

/-- a string literal. -/
theorem Reads.str {s : Str} {ts : List Spec.Tok} (n : Str) (hq : '"' ∉ n) (hb : '\\' ∉ n)
    (hs : s.head? ≠ some '"') (h : Reads s ts) : Reads ('"' :: (n ++ '"' :: s)) (.str n :: ts) := by
  refine Reads.tok (rest := s) (fun d hd => ?_) ?_ (by simp; omega) h
  · cases hd; decide
  · rw [Spec.tok, if_pos rfl, lexString_plain n s hq hb hs]
    rfl

theorem takeWhile_split {α : Type} (p : α → Bool) (w r : List α) (hw : ∀ c ∈ w, p c = true)
    (hr : ∀ c ∈ r.head?, p c = false) :
    (w ++ r).takeWhile p = w ∧ (w ++ r).dropWhile p = r := by
  induction w with
  | nil =>
    cases r with
    | nil => exact ⟨rfl, rfl⟩
    | cons c r =>
      have := hr c rfl
      simp [this]
  | cons c w ih =>
    have hc := hw c (List.mem_cons_self ..)
    obtain ⟨h1, h2⟩ := ih fun d hd => hw d (List.mem_cons_of_mem _ hd)
    simp [hc, h1, h2]

/-- a word. -/
theorem Reads.word {s : Str} {ts : List Spec.Tok} (c : Char) (w : Str) (hd : Spec.isDigit c = false)
    (hw : ∀ d ∈ c :: w, Spec.isIdentChar d = true) (hs : ∀ d ∈ s.head?, Spec.isIdentChar d = false)
    (h : Reads s ts) : Reads (c :: (w ++ s)) (.word (c :: w) :: ts) := by
  have hc := hw c (List.mem_cons_self ..)
  have ne : ∀ d : Char, Spec.isIdentChar d = false → c ≠ d := by
    intro d hd' hh
    rw [← hh, hc] at hd'
    cases hd'
  obtain ⟨t1, t2⟩ := takeWhile_split Spec.isIdentChar (c :: w) s hw hs
  refine Reads.tok (rest := s) (fun d hd => ?_) ?_ (by simp; omega) h
  · cases hd
    have h1 := ne ' ' (by decide)
    have h2 := ne '\n' (by decide)
    have h3 := ne '\t' (by decide)
    have h4 := ne '\r' (by decide)
    simp [Spec.isBlank, h1, h2, h3, h4]
  · rw [Spec.tok, if_neg (ne _ (by decide)), if_neg (ne _ (by decide)), if_neg (ne _ (by decide)), hd, hc]
    dsimp only
    rw [if_neg (by decide), if_pos rfl, ← List.cons_append, t1, t2]

/-- a number. -/
theorem Reads.num {s : Str} {ts : List Spec.Tok} (ds : Str) (hne : ds ≠ [])
    (hd : ∀ d ∈ ds, Spec.isDigit d = true) (hs : ∀ d ∈ s.head?, Spec.isIdentChar d = false)
    (h : Reads s ts) : Reads (ds ++ s) (.num (Spec.numVal ds) :: ts) := by
  match ds with
  | [] => exact absurd rfl hne
  | c :: w =>
    have hc := hd c (List.mem_cons_self ..)
    have ne : ∀ d : Char, Spec.isDigit d = false → c ≠ d := by
      intro d hd' hh
      rw [← hh, hc] at hd'
      cases hd'
    have hsd : ∀ d ∈ s.head?, Spec.isDigit d = false := by
      intro d hd'
      have := hs d hd'
      cases hh : Spec.isDigit d with
      | false => rfl
      | true =>
        unfold Spec.isDigit at hh
        unfold Spec.isIdentChar Spec.identRanges at this
        simp at hh this
        omega
    obtain ⟨t1, t2⟩ := takeWhile_split Spec.isDigit (c :: w) s hd hsd
    refine Reads.tok (rest := s) (fun d hd => ?_) ?_ (by simp; omega) h
    · simp at hd
      subst hd
      have h1 := ne ' ' (by decide)
      have h2 := ne '\n' (by decide)
      have h3 := ne '\t' (by decide)
      have h4 := ne '\r' (by decide)
      simp [Spec.isBlank, h1, h2, h3, h4]
    · rw [List.cons_append, Spec.tok, if_neg (ne _ (by decide)), if_neg (ne _ (by decide)),
        if_neg (ne _ (by decide)), hc]
      dsimp only
      rw [if_pos rfl, ← List.cons_append, t1, t2]
      rw [if_neg]
      cases hh : s.head? with
      | none => simp
      | some d => simp; exact hs d hh

theorem numVal_snoc (ds : Str) (c : Char) : Spec.numVal (ds ++ [c]) = 10 * Spec.numVal ds + (c.toNat - 48) := by
  unfold Spec.numVal
  rw [List.foldl_append]
  rfl

theorem numVal_decStr (n : Nat) : Spec.numVal (decStr n) = n ∧ decStr n ≠ [] ∧
    ∀ d ∈ decStr n, Spec.isDigit d = true := by
  have dig : ∀ d < 10, (digitChar d).toNat - 48 = d ∧ Spec.isDigit (digitChar d) = true := by decide
  induction n using Nat.strongRecOn with
  | _ n ih =>
    rw [decStr]
    split
    · rename_i h
      have := dig n h
      refine ⟨?_, by simp, fun d hd => ?_⟩
      · simp [Spec.numVal, this.1]
      · rw [List.mem_singleton] at hd
        rw [hd]
        exact this.2
    · rename_i h
      obtain ⟨i1, i2, i3⟩ := ih (n / 10) (by omega)
      have := dig (n % 10) (by omega)
      refine ⟨?_, by simp, fun d hd => ?_⟩
      · rw [numVal_snoc, i1, this.1]
        omega
      · rw [List.mem_append, List.mem_singleton] at hd
        rcases hd with hd | hd
        · exact i3 d hd
        · rw [hd]; exact this.2

theorem Reads.dec {s : Str} {ts : List Spec.Tok} (n : Nat) (hs : ∀ d ∈ s.head?, Spec.isIdentChar d = false)
    (h : Reads s ts) : Reads (decStr n ++ s) (.num n :: ts) := by
  obtain ⟨h1, h2, h3⟩ := numVal_decStr n
  have := Reads.num (decStr n) h2 h3 hs h
  rw [h1] at this
  exact this

/-! ### fixed text -/

theorem lexString_suffix (q : Char) (s : Str) : ∀ a rest, Spec.lexString q s = some (a, rest) →
    (∃ pre, pre ≠ [] ∧ s = pre ++ rest) ∧ (rest = [] → s.getLast? = some q) ∧
    (rest ≠ [] → ∀ x, Spec.lexString q (s ++ x) = some (a, rest ++ x)) := by
  induction s using Spec.lexString.induct (q := q) with
  | case1 => intro a rest h; cases h
  | case2 => intro a rest h; rw [Spec.lexString.eq_def] at h; simp at h
  | case3 c' r' ih =>
    intro a rest h
    rw [Spec.lexString.eq_def] at h
    dsimp only at h
    rw [if_pos rfl] at h
    match hr : Spec.lexString q r' with
    | none => rw [hr] at h; cases h
    | some (a', rest') =>
      rw [hr] at h
      cases h
      obtain ⟨⟨pre, hp, h1⟩, h2, h3⟩ := ih a' rest' hr
      refine ⟨⟨_ :: _ :: pre, by simp, by rw [h1]; rfl⟩, fun hn => ?_, fun hn x => ?_⟩
      · have := h2 hn
        cases r' with
        | nil => cases this
        | cons y ys => simpa using this
      · rw [List.cons_append, List.cons_append, Spec.lexString.eq_def]
        dsimp only
        rw [if_pos rfl, h3 hn x]
        rfl
  | case4 hc =>
    intro a rest h
    rw [Spec.lexString.eq_def] at h
    dsimp only at h
    rw [if_neg hc, if_pos rfl] at h
    cases h
    exact ⟨⟨[_], by simp, rfl⟩, fun _ => rfl, fun h => absurd rfl h⟩
  | case5 r hc ih =>
    intro a rest h
    rw [Spec.lexString.eq_def] at h
    dsimp only at h
    rw [if_neg hc, if_pos rfl, if_pos rfl] at h
    match hr : Spec.lexString q r with
    | none => rw [hr] at h; cases h
    | some (a', rest') =>
      rw [hr] at h
      cases h
      obtain ⟨⟨pre, hp, h1⟩, h2, h3⟩ := ih a' rest' hr
      refine ⟨⟨_ :: _ :: pre, by simp, by rw [h1]; rfl⟩, fun hn => ?_, fun hn x => ?_⟩
      · have := h2 hn
        cases r with
        | nil => cases this
        | cons y ys => simpa using this
      · rw [List.cons_append, List.cons_append, Spec.lexString.eq_def]
        dsimp only
        rw [if_neg hc, if_pos rfl, if_pos rfl, h3 hn x]
        rfl
  | case6 d r hd hc =>
    intro a rest h
    rw [Spec.lexString.eq_def] at h
    dsimp only at h
    rw [if_neg hc, if_pos rfl, if_neg hd] at h
    cases h
    refine ⟨⟨[_], by simp, rfl⟩, (by intro h; cases h), fun _ x => ?_⟩
    rw [List.cons_append, List.cons_append, Spec.lexString.eq_def]
    dsimp only
    rw [if_neg hc, if_pos rfl, if_neg hd]
  | case7 c r hc hcq ih =>
    intro a rest h
    rw [Spec.lexString.eq_def] at h
    dsimp only at h
    rw [if_neg hc, if_neg hcq] at h
    match hr : Spec.lexString q r with
    | none => rw [hr] at h; cases h
    | some (a', rest') =>
      rw [hr] at h
      cases h
      obtain ⟨⟨pre, hp, h1⟩, h2, h3⟩ := ih a' rest' hr
      refine ⟨⟨_ :: pre, by simp, by rw [h1]; rfl⟩, fun hn => ?_, fun hn x => ?_⟩
      · have := h2 hn
        cases r with
        | nil => cases this
        | cons y ys => simpa using this
      · rw [List.cons_append, Spec.lexString.eq_def]
        dsimp only
        rw [if_neg hc, if_neg hcq, h3 hn x]
        rfl

theorem lexIdent_suffix (s : Str) : ∀ a rest, Spec.lexIdent s = some (a, rest) →
    (∃ pre, pre ≠ [] ∧ s = pre ++ rest) ∧ (rest = [] → s.getLast? = some '`') ∧
    (rest ≠ [] → ∀ x, Spec.lexIdent (s ++ x) = some (a, rest ++ x)) := by
  induction s using Spec.lexIdent.induct with
  | case1 => intro a rest h; cases h
  | case2 =>
    intro a rest h
    rw [Spec.lexIdent.eq_def] at h
    dsimp only at h
    rw [if_pos rfl] at h
    cases h
    exact ⟨⟨[_], by simp, rfl⟩, fun _ => rfl, fun h => absurd rfl h⟩
  | case3 r ih =>
    intro a rest h
    rw [Spec.lexIdent.eq_def] at h
    dsimp only at h
    rw [if_pos rfl, if_pos rfl] at h
    match hr : Spec.lexIdent r with
    | none => rw [hr] at h; cases h
    | some (a', rest') =>
      rw [hr] at h
      cases h
      obtain ⟨⟨pre, hp, h1⟩, h2, h3⟩ := ih a' rest' hr
      refine ⟨⟨_ :: _ :: pre, by simp, by rw [h1]; rfl⟩, fun hn => ?_, fun hn x => ?_⟩
      · have := h2 hn
        cases r with
        | nil => cases this
        | cons y ys => simpa using this
      · rw [List.cons_append, List.cons_append, Spec.lexIdent.eq_def]
        dsimp only
        rw [if_pos rfl, if_pos rfl, h3 hn x]
        rfl
  | case4 d r hd =>
    intro a rest h
    rw [Spec.lexIdent.eq_def] at h
    dsimp only at h
    rw [if_pos rfl, if_neg hd] at h
    cases h
    refine ⟨⟨[_], by simp, rfl⟩, (by intro h; cases h), fun _ x => ?_⟩
    rw [List.cons_append, List.cons_append, Spec.lexIdent.eq_def]
    dsimp only
    rw [if_pos rfl, if_neg hd]
  | case5 c r hc ih =>
    intro a rest h
    rw [Spec.lexIdent.eq_def] at h
    dsimp only at h
    rw [if_neg hc] at h
    match hr : Spec.lexIdent r with
    | none => rw [hr] at h; cases h
    | some (a', rest') =>
      rw [hr] at h
      cases h
      obtain ⟨⟨pre, hp, h1⟩, h2, h3⟩ := ih a' rest' hr
      refine ⟨⟨_ :: pre, by simp, by rw [h1]; rfl⟩, fun hn => ?_, fun hn x => ?_⟩
      · have := h2 hn
        cases r with
        | nil => cases this
        | cons y ys => simpa using this
      · rw [List.cons_append, Spec.lexIdent.eq_def]
        dsimp only
        rw [if_neg hc, h3 hn x]
        rfl

theorem dropWhile_suffix {α : Type} (p : α → Bool) (s : List α) :
    (∀ y ∈ (s.dropWhile p).head?, p y = false) ∧
    (s.dropWhile p ≠ [] → ∀ x, (s ++ x).dropWhile p = s.dropWhile p ++ x ∧ (s ++ x).takeWhile p = s.takeWhile p) ∧
    (s.dropWhile p = [] → ∀ y ∈ s, p y = true) := by
  induction s with
  | nil => exact ⟨(by intro y h; cases h), fun h => absurd rfl h, (by intro _ y h; cases h)⟩
  | cons c s ih =>
    by_cases hc : p c = true
    · rw [List.dropWhile_cons_of_pos hc]
      refine ⟨ih.1, fun h x => ?_, fun h y hy => ?_⟩
      · obtain ⟨h1, h2⟩ := ih.2.1 h x
        rw [List.cons_append, List.dropWhile_cons_of_pos hc, List.takeWhile_cons_of_pos hc,
          List.takeWhile_cons_of_pos hc, h1, h2]
        exact ⟨rfl, rfl⟩
      · rcases List.mem_cons.1 hy with rfl | hy
        · exact hc
        · exact ih.2.2 h y hy
    · rw [List.dropWhile_cons_of_neg hc]
      refine ⟨fun y hy => by cases hy; simpa using hc, fun _ x => ?_, (by intro h; cases h)⟩
      rw [List.cons_append, List.dropWhile_cons_of_neg hc, List.takeWhile_cons_of_neg hc,
        List.takeWhile_cons_of_neg hc]
      exact ⟨rfl, rfl⟩

/-- where text can be cut. -/
def cutChar (c : Char) : Bool := Spec.isBlank c || decide (c ∈ Spec.puncts)

theorem cutChar_not {c : Char} (h : cutChar c = true) :
    c ≠ '"' ∧ c ≠ '\'' ∧ c ≠ '`' ∧ Spec.isDigit c = false ∧ Spec.isIdentChar c = false := by
  have : ∀ c ∈ [' ', '\n', '\t', '\r'] ++ Spec.puncts, c ≠ '"' ∧ c ≠ '\'' ∧ c ≠ '`' ∧
      Spec.isDigit c = false ∧ Spec.isIdentChar c = false := by decide
  refine this c ?_
  unfold cutChar Spec.isBlank at h
  simp only [Bool.or_eq_true, decide_eq_true_eq] at h
  rw [List.mem_append]
  rcases h with h | h
  · left
    rcases h with ((h | h) | h) | h <;> rw [h] <;> decide
  · exact .inr h

theorem tok_suffix (s : Str) (t : Spec.Tok) (rest : Str) (h : Spec.tok s = some (t, rest))
    (hl : ∀ c ∈ s.getLast?, cutChar c = true) :
    (∃ pre, pre ≠ [] ∧ s = pre ++ rest) ∧ ∀ x, Spec.tok (s ++ x) = some (t, rest ++ x) := by
  cases s with
  | nil => cases h
  | cons c r =>
    have last : ∀ d, r.getLast? = some d → cutChar d = true := by
      intro d hd
      refine hl d ?_
      cases r with
      | nil => cases hd
      | cons y ys => simpa using hd
    rw [Spec.tok] at h
    by_cases h1 : c = '"'
    · rw [if_pos h1] at h
      match hr : Spec.lexString '"' r with
      | none => rw [hr] at h; cases h
      | some (a, rest') =>
        rw [hr] at h
        cases h
        obtain ⟨⟨pre, hp, e1⟩, e2, e3⟩ := lexString_suffix '"' r a rest' hr
        refine ⟨⟨c :: pre, by simp, by rw [e1]; rfl⟩, fun x => ?_⟩
        have hne : rest' ≠ [] := fun hn => (cutChar_not (last _ (e2 hn))).1 rfl
        show Spec.tok (c :: (r ++ x)) = _
        rw [Spec.tok, if_pos h1, e3 hne x]
        rfl
    · rw [if_neg h1] at h
      by_cases h2 : c = '\''
      · rw [if_pos h2] at h
        match hr : Spec.lexString '\'' r with
        | none => rw [hr] at h; cases h
        | some (a, rest') =>
          rw [hr] at h
          cases h
          obtain ⟨⟨pre, hp, e1⟩, e2, e3⟩ := lexString_suffix '\'' r a rest' hr
          refine ⟨⟨c :: pre, by simp, by rw [e1]; rfl⟩, fun x => ?_⟩
          have hne : rest' ≠ [] := fun hn => (cutChar_not (last _ (e2 hn))).2.1 rfl
          show Spec.tok (c :: (r ++ x)) = _
          rw [Spec.tok, if_neg h1, if_pos h2, e3 hne x]
          rfl
      · rw [if_neg h2] at h
        by_cases h3 : c = '`'
        · rw [if_pos h3] at h
          match hr : Spec.lexIdent r with
          | none => rw [hr] at h; cases h
          | some (a, rest') =>
            rw [hr] at h
            cases h
            obtain ⟨⟨pre, hp, e1⟩, e2, e3⟩ := lexIdent_suffix r a rest' hr
            refine ⟨⟨c :: pre, by simp, by rw [e1]; rfl⟩, fun x => ?_⟩
            have hne : rest' ≠ [] := fun hn => (cutChar_not (last _ (e2 hn))).2.2.1 rfl
            show Spec.tok (c :: (r ++ x)) = _
            rw [Spec.tok, if_neg h1, if_neg h2, if_pos h3, e3 hne x]
            rfl
        · rw [if_neg h3] at h
          have lastOf : ∃ d, (c :: r).getLast? = some d := ⟨_, List.getLast?_eq_some_getLast (List.cons_ne_nil c r)⟩
          obtain ⟨ld, hld⟩ := lastOf
          have hcut := cutChar_not (hl ld hld)
          have hmem : ld ∈ c :: r := List.mem_of_getLast? hld
          by_cases h4 : Spec.isDigit c = true
          · rw [if_pos h4] at h
            dsimp only at h
            obtain ⟨d1, d2, d3⟩ := dropWhile_suffix Spec.isDigit (c :: r)
            have hne : (c :: r).dropWhile Spec.isDigit ≠ [] := by
              intro hn
              have := d3 hn ld hmem
              rw [hcut.2.2.2.1] at this
              cases this
            by_cases h5 : ((c :: r).dropWhile Spec.isDigit).head?.any Spec.isIdentChar = true
            · rw [if_pos h5] at h; cases h
            · rw [if_neg h5] at h
              cases h
              refine ⟨⟨(c :: r).takeWhile Spec.isDigit, ?_, (List.takeWhile_append_dropWhile).symm⟩, fun x => ?_⟩
              · rw [List.takeWhile_cons_of_pos h4]; simp
              · obtain ⟨f1, f2⟩ := d2 hne x
                rw [List.cons_append, Spec.tok, if_neg h1, if_neg h2, if_neg h3, if_pos h4, ← List.cons_append]
                dsimp only
                rw [f1, f2]
                have hh : ((c :: r).dropWhile Spec.isDigit ++ x).head? = ((c :: r).dropWhile Spec.isDigit).head? := by
                  cases hq : (c :: r).dropWhile Spec.isDigit with
                  | nil => exact absurd hq hne
                  | cons => rfl
                rw [hh, if_neg h5]
          · rw [if_neg h4] at h
            by_cases h5 : Spec.isIdentChar c = true
            · rw [if_pos h5] at h
              obtain ⟨d1, d2, d3⟩ := dropWhile_suffix Spec.isIdentChar (c :: r)
              have hne : (c :: r).dropWhile Spec.isIdentChar ≠ [] := by
                intro hn
                have := d3 hn ld hmem
                rw [hcut.2.2.2.2] at this
                cases this
              cases h
              refine ⟨⟨(c :: r).takeWhile Spec.isIdentChar, ?_, (List.takeWhile_append_dropWhile).symm⟩, fun x => ?_⟩
              · rw [List.takeWhile_cons_of_pos h5]; simp
              · obtain ⟨f1, f2⟩ := d2 hne x
                rw [List.cons_append, Spec.tok, if_neg h1, if_neg h2, if_neg h3, if_neg h4, if_pos h5, ← List.cons_append, f1, f2]
            · rw [if_neg h5] at h
              by_cases h6 : c ∈ Spec.puncts
              · rw [if_pos h6] at h
                cases h
                refine ⟨⟨[c], by simp, rfl⟩, fun x => ?_⟩
                rw [List.cons_append, Spec.tok, if_neg h1, if_neg h2, if_neg h3, if_neg h4, if_neg h5, if_pos h6]
              · rw [if_neg h6] at h; cases h

theorem toksN_fixed (n : Nat) (s r : Str) (ts us : List Spec.Tok) (hs : Spec.toksN n s = some ts)
    (hl : ∀ c ∈ s.getLast?, cutChar c = true) (h : Reads r us) : Reads (s ++ r) (ts ++ us) := by
  induction n generalizing s ts with
  | zero =>
    cases s with
    | nil => cases hs; exact h
    | cons c s => cases hs
  | succ n ih =>
    cases s with
    | nil => cases hs; exact h
    | cons c s =>
      have last : ∀ (s' pre : Str), pre ++ s' = c :: s → ∀ d ∈ s'.getLast?, cutChar d = true := by
        intro s' pre he d hd
        refine hl d ?_
        rw [← he]
        cases s' with
        | nil => cases hd
        | cons y ys => rw [List.getLast?_append, hd]; rfl
      rw [Spec.toksN] at hs
      by_cases hb : Spec.isBlank c = true
      · rw [if_pos hb] at hs
        have := ih s ts hs (last s [c] rfl)
        intro m hm
        cases m with
        | zero => simp at hm
        | succ m =>
          rw [List.cons_append, Spec.toksN, if_pos hb]
          exact this m (by simpa using hm)
      · rw [if_neg hb] at hs
        match ht : Spec.tok (c :: s) with
        | none => rw [ht] at hs; cases hs
        | some (t, rest) =>
          rw [ht] at hs
          dsimp only at hs
          match hr : Spec.toksN n rest with
          | none => rw [hr] at hs; cases hs
          | some ts' =>
            rw [hr] at hs
            cases hs
            obtain ⟨⟨pre, hp, he⟩, hx⟩ := tok_suffix _ t rest ht hl
            have hi := ih rest ts' hr (last rest pre he.symm)
            refine Reads.tok (rest := rest ++ r) (fun d hd => ?_) (hx r) ?_ hi
            · cases hd; simpa using hb
            · rw [he]
              cases pre with
              | nil => exact absurd rfl hp
              | cons => simp; omega

/-- text known beforehand, cut after a blank or punctuation. -/
theorem Reads.fixed (s : Str) {r : Str} {ts us : List Spec.Tok} (hs : Spec.tokens s = some ts)
    (hl : (s.getLast?.all cutChar) = true) (h : Reads r us) : Reads (s ++ r) (ts ++ us) := by
  refine toksN_fixed _ s r ts us hs (fun c hc => ?_) h
  cases hg : s.getLast? with
  | none => rw [hg] at hc; cases hc
  | some d => rw [hg] at hc hl; cases hc; simpa using hl

end Verif

import Verif.Model.Display
import Verif.Spec.Sql

/-! # C21 — quoted identifiers cannot be broken out of -/

namespace Verif

/-- backquotes doubled. -/
def dbl : Str → Str
  | [] => []
  | c :: cs => (if c = '`' then ['`', c] else [c]) ++ dbl cs

theorem dbl_append (a b : Str) : dbl (a ++ b) = dbl a ++ dbl b := by
  induction a with
  | nil => rfl
  | cons c a ih => simp only [List.cons_append, dbl, ih, List.append_assoc]

theorem identLoop_eq (last i : Nat) (s : Str) :
    identLoop last i s = dbl ((s.take (last + 1 - i)).filter identValid) := by
  induction s generalizing i with
  | nil => simp [identLoop, dbl]
  | cons c s ih =>
    rw [identLoop, ih]
    by_cases h : i ≤ last
    · have : last + 1 - i = (last + 1 - (i + 1)) + 1 := by omega
      rw [this, List.take_succ_cons, List.filter_cons]
      by_cases hv : identValid c = true
      · rw [if_pos ⟨h, hv⟩, if_pos hv]; rfl
      · rw [if_neg (fun k => hv k.2), if_neg hv]; rfl
    · have e1 : last + 1 - i = 0 := by omega
      have e2 : last + 1 - (i + 1) = 0 := by omega
      rw [e1, e2, if_neg (fun k => h k.1)]
      rfl

theorem lexIdent_dbl (s r : Str) (h : r.head? ≠ some '`') :
    Spec.lexIdent (dbl s ++ '`' :: r) = some (s, r) := by
  induction s with
  | nil =>
    rw [dbl, List.nil_append, Spec.lexIdent.eq_def]
    dsimp only
    rw [if_pos rfl]
    cases r with
    | nil => rfl
    | cons d r => dsimp only; rw [if_neg (by simpa using h)]
  | cons c s ih =>
    rw [dbl]
    by_cases hc : c = '`'
    · subst hc
      rw [if_pos rfl]
      simp only [List.cons_append, List.nil_append]
      rw [Spec.lexIdent.eq_def]
      dsimp only
      rw [if_pos rfl, if_pos rfl, ih]
      rfl
    · rw [if_neg hc]
      simp only [List.cons_append, List.nil_append]
      rw [Spec.lexIdent.eq_def]
      dsimp only
      rw [if_neg hc, ih]
      rfl

/-- the characters that determine where the identifier ends. -/
def good (c : Char) : Bool := !isWhitespace c && identValid c

theorem lastCharLoop_append (i last : Nat) (a b : Str) :
    lastCharLoop i last (a ++ b) = lastCharLoop (i + a.length) (lastCharLoop i last a) b := by
  induction a generalizing i last with
  | nil => rfl
  | cons c a ih =>
    rw [List.cons_append, lastCharLoop, ih, lastCharLoop]
    congr 1
    simp only [List.length_cons]; omega

theorem lastCharLoop_none (i last : Nat) (s : Str) (h : ∀ c ∈ s, good c = false) :
    lastCharLoop i last s = last := by
  induction s generalizing i with
  | nil => rfl
  | cons c s ih =>
    have : (!isWhitespace c && identValid c) = false := h c (by simp)
    rw [lastCharLoop, this]
    exact ih _ fun d hd => h d (by simp [hd])

theorem split_good (s : Str) : (∀ c ∈ s, good c = false) ∨
    ∃ a g b, s = a ++ g :: b ∧ good g = true ∧ ∀ c ∈ b, good c = false := by
  induction s with
  | nil => left; simp
  | cons c s ih =>
    rcases ih with h | ⟨a, g, b, rfl, hg, hb⟩
    · cases hc : good c
      · left; simpa [hc] using h
      · right; exact ⟨[], c, s, rfl, hc, h⟩
    · right; exact ⟨c :: a, g, b, rfl, hg, hb⟩

theorem whitespace_eq (c : Char) : isWhitespace c = decide (c.toNat ∈ Spec.whiteSpace) := by
  rw [Bool.eq_iff_iff]
  simp only [isWhitespace, Spec.whiteSpace, Bool.or_eq_true, Bool.and_eq_true, decide_eq_true_eq,
    beq_iff_eq, List.mem_cons, List.not_mem_nil, or_false]
  omega

theorem identValid_eq : identValid = Spec.identAllowed := by
  funext c
  rw [Bool.eq_iff_iff]
  simp only [identValid, Spec.identAllowed, Bool.and_eq_true, decide_eq_true_eq]
  omega

theorem trimEnd_append (a b : Str) (g : Char) (hg : isWhitespace g = false)
    (hb : ∀ c ∈ b, isWhitespace c = true) : Spec.trimEnd (a ++ g :: b) = a ++ [g] := by
  unfold Spec.trimEnd
  have e : (a ++ g :: b).reverse = b.reverse ++ (g :: a.reverse) := by simp
  rw [e, List.dropWhile_append_of_pos]
  · rw [List.dropWhile_cons, if_neg]
    · simp
    · rw [← whitespace_eq, hg]; decide
  · intro c hc
    rw [← whitespace_eq]
    exact hb c (by simpa using hc)

/-- the content of the quoted identifier. -/
def identContent (s : Str) : Str := (s.take (lastCharLoop 0 0 s + 1)).filter identValid

theorem identifierEscape_eq (s : Str) : identifierEscape s = '`' :: (dbl (identContent s) ++ ['`']) := by
  unfold identifierEscape identContent
  rw [identLoop_eq]
  rfl

theorem lex_identifierEscape (s rest : Str) (h : rest.head? ≠ some '`') :
    Spec.lex (identifierEscape s ++ rest) = some (.ident (identContent s), rest) := by
  rw [identifierEscape_eq]
  simp only [List.cons_append, List.append_assoc, List.nil_append]
  unfold Spec.lex
  dsimp only
  rw [if_neg (by decide), if_neg (by decide), if_pos rfl, lexIdent_dbl _ _ h]
  rfl

/-- The quoted form of every identifier, followed by any text that does not begin with a backquote,
is exactly one identifier token, and lexing continues at that text.  Unless only whitespace is left
after removing the forbidden characters, the token is the input without the forbidden characters
and without trailing whitespace. -/
theorem C21_one_identifier (s rest : Str) (h : rest.head? ≠ some '`') :
    ∃ content, Spec.lex (identifierEscape s ++ rest) = some (.ident content, rest) ∧
      (∀ c ∈ content, Spec.identAllowed c = true) ∧ content.Sublist s ∧
      ((∃ c ∈ s, Spec.identAllowed c = true ∧ c.toNat ∉ Spec.whiteSpace) →
        content = Spec.trimEnd (s.filter Spec.identAllowed)) := by
  refine ⟨identContent s, lex_identifierEscape s rest h, ?_, ?_, ?_⟩
  · intro c hc
    rw [← identValid_eq]
    exact (List.mem_filter.1 hc).2
  · exact List.filter_sublist.trans (List.take_sublist _ _)
  · rintro ⟨c, hc, hv, hw⟩
    rcases split_good s with hn | ⟨a, g, b, rfl, hg, hb⟩
    · have := hn c hc
      rw [good, whitespace_eq, identValid_eq, hv, decide_eq_false hw] at this
      cases this
    · have hl : lastCharLoop 0 0 (a ++ g :: b) = a.length := by
        rw [lastCharLoop_append, lastCharLoop]
        unfold good at hg
        rw [hg, lastCharLoop_none _ _ _ hb]
        simp
      unfold identContent
      rw [hl, List.take_length_add_append]
      have hg' : isWhitespace g = false ∧ identValid g = true := by simpa [good] using hg
      simp only [List.take_succ_cons, List.take_zero, List.filter_append, List.filter_cons,
        ← identValid_eq, hg'.2, if_true, List.filter_nil]
      rw [trimEnd_append _ _ _ hg'.1]
      intro d hd
      obtain ⟨hd, hv⟩ := List.mem_filter.1 hd
      have := hb d hd
      rw [good, hv] at this
      simpa using this

/-- The remaining case, exactly: the first character of the input is kept if it is an allowed
(whitespace) character; so `" "` gives an identifier that ends in a space, which MySQL rejects. -/
theorem C21_only_whitespace (s : Str)
    (h : ∀ c ∈ s, Spec.identAllowed c = true → c.toNat ∈ Spec.whiteSpace) :
    Spec.lex (identifierEscape s) = some (.ident ((s.take 1).filter Spec.identAllowed), []) := by
  have := lex_identifierEscape s [] (by simp)
  rw [List.append_nil] at this
  rw [this]
  unfold identContent
  rw [lastCharLoop_none, identValid_eq]
  intro c hc
  cases hv : Spec.identAllowed c
  · rw [good, identValid_eq, hv, Bool.and_false]
  · rw [good, whitespace_eq, decide_eq_true (h c hc hv)]
    rfl

/-- Identifiers that are already proper are kept, so different ones stay different. -/
theorem C21_proper_unchanged (s : Str) (hv : ∀ c ∈ s, Spec.identAllowed c = true)
    (hl : ∀ c, s.getLast? = some c → c.toNat ∉ Spec.whiteSpace) :
    Spec.lex (identifierEscape s) = some (.ident s, []) := by
  obtain ⟨content, h1, -, -, h2⟩ := C21_one_identifier s [] (by simp)
  rw [List.append_nil] at h1
  rw [h1]
  rcases List.eq_nil_or_concat s with rfl | ⟨t, c, rfl⟩
  · have : Spec.lex (identifierEscape []) = some (.ident [], []) := by decide +kernel
    rw [← h1, this]
  · have hc := hl c (by simp)
    rw [h2 ⟨c, by simp, hv c (by simp), hc⟩, List.filter_eq_self.2 hv, List.concat_eq_append,
      trimEnd_append t [] c (by rw [whitespace_eq, decide_eq_false hc]) (by simp)]

example : Spec.lex (identifierEscape "a`; DROP TABLE `b\x00  ".toList ++ " WHERE".toList)
    = some (.ident "a`; DROP TABLE `b".toList, " WHERE".toList) := by decide +kernel

example : Spec.lex (identifierEscape "  ".toList) = some (.ident [' '], []) ∧
    Spec.lex (identifierEscape "\x00".toList) = some (.ident [], []) ∧
    Spec.lex (identifierEscape "user`name".toList) = some (.ident "user`name".toList, []) := by decide +kernel

end Verif

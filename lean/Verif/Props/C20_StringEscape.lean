import Verif.Model.Display
import Verif.Spec.Sql

/-!
# C20 — string literals cannot be broken out of

`\z` (as the code writes for U+001A) means `z` in MySQL, only `\Z` means U+001A; so a string with
this character arrives changed, but still is one literal.
-/

namespace Verif

/-- what the server reads for one character. -/
def escRead (c : Char) : Char := if c = '\x1A' then 'z' else c

theorem lexString_escChar (c : Char) (r : Str) :
    Spec.lexString '"' (escChar c ++ r) = (Spec.lexString '"' r).map fun p => (escRead c :: p.1, p.2) := by
  unfold escChar
  repeat' split
  all_goals first
    | (subst_vars; rfl)
    | skip
  rename_i h1 h2 h3 h4 h5 h6 h7 h8 h9
  have : escRead c = c := by unfold escRead; rw [if_neg h6]
  rw [this, List.singleton_append, Spec.lexString.eq_def]
  dsimp only
  rw [if_neg h9, if_neg h8]

theorem lexString_escChars (s r : Str) :
    Spec.lexString '"' (escChars s ++ r)
      = (Spec.lexString '"' r).map fun p => (s.map escRead ++ p.1, p.2) := by
  induction s with
  | nil => cases h : Spec.lexString '"' r <;> simp [escChars, h]
  | cons c s ih =>
    rw [escChars, List.append_assoc, lexString_escChar, ih]
    cases Spec.lexString '"' r <;> rfl

theorem lexString_end (r : Str) (h : r.head? ≠ some '"') :
    Spec.lexString '"' ('"' :: r) = some ([], r) := by
  rw [Spec.lexString.eq_def]
  dsimp only
  rw [if_neg (by decide), if_pos rfl]
  cases r with
  | nil => rfl
  | cons d r =>
    dsimp only
    rw [if_neg (by simpa using h)]

/-- The escaped form of every string, followed by any text that does not begin with another double
quote, is exactly one string literal, and lexing continues at that text. -/
theorem C20_no_break_out (s rest : Str) (h : rest.head? ≠ some '"') :
    ∃ content, Spec.lex (stringEscape s ++ rest) = some (.string content, rest) ∧
      content.length = s.length := by
  refine ⟨s.map escRead, ?_, List.length_map _⟩
  have : stringEscape s ++ rest = '"' :: (escChars s ++ '"' :: rest) := by
    simp only [stringEscape, List.append_assoc, List.cons_append, List.nil_append]
  rw [this]
  unfold Spec.lex
  dsimp only
  rw [if_pos rfl, lexString_escChars, lexString_end rest h]
  simp

/-- The content is the original string, if this contains no U+001A.
Missing: strings with this character (`C20_ctrl_z_violated`). -/
theorem C20_content_partial (s rest : Str) (h : rest.head? ≠ some '"') (hz : '\x1A' ∉ s) :
    Spec.lex (stringEscape s ++ rest) = some (.string s, rest) := by
  have : stringEscape s ++ rest = '"' :: (escChars s ++ '"' :: rest) := by
    simp only [stringEscape, List.append_assoc, List.cons_append, List.nil_append]
  rw [this]
  unfold Spec.lex
  dsimp only
  rw [if_pos rfl, lexString_escChars, lexString_end rest h]
  have : s.map escRead = s := by
    conv => rhs; rw [← List.map_id s]
    apply List.map_congr_left
    intro c hc
    unfold escRead
    rw [if_neg (by rintro rfl; exact hz hc)]
    rfl
  simp [this]

/-- Different strings (without U+001A) have different literals. -/
theorem C20_injective_partial (s t : Str) (hs : '\x1A' ∉ s) (ht : '\x1A' ∉ t)
    (h : stringEscape s = stringEscape t) : s = t := by
  have h1 := C20_content_partial s [] (by simp) hs
  have h2 := C20_content_partial t [] (by simp) ht
  rw [h, h2] at h1
  simpa using h1.symm

/-- what the server reads of every string, and that it reads the string itself exactly if U+001A is not in it. -/
theorem C20_exact_partial (s rest : Str) (h : rest.head? ≠ some '"') :
    Spec.lex (stringEscape s ++ rest) = some (.string (s.map fun c => if c = '\x1A' then 'z' else c), rest) ∧
      (Spec.lex (stringEscape s ++ rest) = some (.string s, rest) ↔ '\x1A' ∉ s) := by
  have e : Spec.lex (stringEscape s ++ rest) = some (.string (s.map escRead), rest) := by
    have : stringEscape s ++ rest = '"' :: (escChars s ++ '"' :: rest) := by
      simp only [stringEscape, List.append_assoc, List.cons_append, List.nil_append]
    rw [this]
    unfold Spec.lex
    dsimp only
    rw [if_pos rfl, lexString_escChars, lexString_end rest h]
    simp
  refine ⟨e, fun h1 hz => ?_, fun hz => C20_content_partial s rest h hz⟩
  rw [e] at h1
  simp only [Option.some.injEq, Prod.mk.injEq, and_true, Spec.Token.string.injEq] at h1
  obtain ⟨i, hi, hc⟩ := List.getElem_of_mem hz
  have h2 : (s.map escRead)[i]? = s[i]? := by rw [h1]
  rw [List.getElem?_map, List.getElem?_eq_getElem hi, hc] at h2
  exact absurd h2 (by decide)

/-- The texts themselves are different for different strings, U+001A or not. -/
theorem C20_text_injective (s t : Str) (h : stringEscape s = stringEscape t) : s = t := by
  have h' : escChars s = escChars t := by
    simpa [stringEscape] using h
  clear h
  induction s generalizing t with
  | nil =>
    cases t with
    | nil => rfl
    | cons d t =>
      exfalso
      unfold escChars escChar at h'
      repeat' split at h'
      all_goals simp at h'
  | cons c s ih =>
    cases t with
    | nil =>
      exfalso
      unfold escChars escChar at h'
      repeat' split at h'
      all_goals simp at h'
    | cons d t =>
      have hcd : c = d ∧ escChars s = escChars t := by
        rw [escChars, escChars] at h'
        unfold escChar at h'
        grind (splits := 30)
      rw [hcd.1, ih t hcd.2]

/-- U+001A arrives as the letter z, so two different strings have literals of the same meaning. -/
theorem C20_ctrl_z_violated :
    Spec.lex (stringEscape ['a', '\x1A']) = some (.string ['a', 'z'], []) ∧
    Spec.lex (stringEscape ['a', 'z']) = some (.string ['a', 'z'], []) := by decide +kernel

-- " OR ""=" and a backslash before the closing quote
example : Spec.lex (stringEscape "\" OR \"\"=\"\\".toList ++ " LIMIT 1".toList)
    = some (.string "\" OR \"\"=\"\\".toList, " LIMIT 1".toList) := by decide +kernel

end Verif

import Verif.Spec.Sql

/-!
# Spec: the tokens of a whole statement

Words (keywords and unquoted names), numbers, string literals, quoted identifiers and single
punctuation characters; comments and anything the connector never writes are no tokens here, a
statement with them has no reading.
-/

namespace Verif.Spec

inductive Tok where
  | word (s : Str)
  | num (n : Nat)
  | str (s : Str)
  | name (s : Str)
  | punct (c : Char)
  deriving DecidableEq, Repr

def isDigit (c : Char) : Bool := 48 ≤ c.toNat && c.toNat ≤ 57
def isBlank (c : Char) : Bool := c = ' ' || c = '\n' || c = '\t' || c = '\r'

/-- the value of decimal digits. -/
def numVal (ds : Str) : Nat := ds.foldl (fun n c => 10 * n + (c.toNat - 48)) 0

/-- punctuation the connector's statements use. -/
def puncts : List Char := ['(', ')', ',', '=', '?', '.', '*']

/-- one token and the rest; `none`: not of this kind. -/
def tok : Str → Option (Tok × Str)
  | [] => none
  | c :: r =>
    if c = '"' then (lexString '"' r).map fun p => (.str p.1, p.2)
    else if c = '\'' then (lexString '\'' r).map fun p => (.str p.1, p.2)
    else if c = '`' then (lexIdent r).map fun p => (.name p.1, p.2)
    else if isDigit c then
      let ds := (c :: r).takeWhile isDigit
      let rest := (c :: r).dropWhile isDigit
      if rest.head?.any isIdentChar then none else some (.num (numVal ds), rest)
    else if isIdentChar c then some (.word ((c :: r).takeWhile isIdentChar), (c :: r).dropWhile isIdentChar)
    else if c ∈ puncts then some (.punct c, r)
    else none

/-- all tokens, `n` bounding their number and that of the blanks. -/
def toksN : Nat → Str → Option (List Tok)
  | _, [] => some []
  | 0, _ :: _ => none
  | n + 1, c :: r =>
    if isBlank c then toksN n r
    else
      match tok (c :: r) with
      | some (t, rest) => (toksN n rest).map (t :: ·)
      | none => none

/-- the tokens of a statement. -/
def tokens (s : Str) : Option (List Tok) := toksN s.length s

end Verif.Spec

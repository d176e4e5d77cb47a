import Verif.Basic

/-!
# Spec: the MySQL lexer

Default SQL mode (no NO_BACKSLASH_ESCAPES, no ANSI_QUOTES), connection character set utf8mb4.
After the reference manual, "String Literals", "Schema Object Names", "Hexadecimal Literals", and
`get_text` in sql_lex.cc.
-/

namespace Verif.Spec

/-- what `\c` means inside a string literal. -/
def unescape (c : Char) : Str :=
  if c = '0' then ['\x00']
  else if c = 'b' then ['\x08']
  else if c = 'n' then ['\n']
  else if c = 'r' then ['\r']
  else if c = 't' then ['\t']
  else if c = 'Z' then ['\x1A']
  else if c = '%' ∨ c = '_' then ['\\', c]
  else [c]

/-- inside a string literal quoted with `q`: content and what follows the literal. -/
def lexString (q : Char) : Str → Option (Str × Str)
  | [] => none
  | c :: r =>
    if c = '\\' then
      match r with
      | [] => none
      | d :: r => (lexString q r).map fun p => (unescape d ++ p.1, p.2)
    else if c = q then
      match r with
      | [] => some ([], [])
      | d :: r' => if d = q then (lexString q r').map fun p => (q :: p.1, p.2) else some ([], d :: r')
    else (lexString q r).map fun p => (c :: p.1, p.2)

/-- inside a quoted identifier. -/
def lexIdent : Str → Option (Str × Str)
  | [] => none
  | c :: r =>
    if c = '`' then
      match r with
      | [] => some ([], [])
      | d :: r' => if d = '`' then (lexIdent r').map fun p => ('`' :: p.1, p.2) else some ([], d :: r')
    else (lexIdent r).map fun p => (c :: p.1, p.2)

def hexDigitVal (c : Char) : Option Nat :=
  if '0' ≤ c ∧ c ≤ '9' then some (c.toNat - 48)
  else if 'a' ≤ c ∧ c ≤ 'f' then some (c.toNat - 87)
  else if 'A' ≤ c ∧ c ≤ 'F' then some (c.toNat - 55)
  else none

/-- code points permitted in unquoted identifiers: `$`, digits, `A`-`Z`, `_`, `a`-`z`,
U+0080 .. U+FFFF. -/
def identRanges : List (Nat × Nat) :=
  [(0x24, 0x24), (0x30, 0x39), (0x41, 0x5A), (0x5F, 0x5F), (0x61, 0x7A), (0x80, 0xFFFF)]

/-- characters of unquoted identifiers. -/
def isIdentChar (c : Char) : Bool := identRanges.any fun r => r.1 ≤ c.toNat && c.toNat ≤ r.2

/-- bytes of hexadecimal digits, two digits each. -/
def hexBytes : Str → Option Bytes
  | [] => some []
  | a :: b :: r =>
    match hexDigitVal a, hexDigitVal b, hexBytes r with
    | some x, some y, some bs => some (UInt8.ofNat (16 * x + y) :: bs)
    | _, _, _ => none
  | _ => none

/-- a hexadecimal literal `0x…`: at least one digit (an odd number is padded with a leading 0), and
no identifier character after it — otherwise the text is an identifier. -/
def lexHexLit (s : Str) : Option (Bytes × Str) :=
  match s with
  | '0' :: 'x' :: r =>
    let ds := r.takeWhile fun c => (hexDigitVal c).isSome
    let rest := r.dropWhile fun c => (hexDigitVal c).isSome
    if ds = [] then none
    else if rest.head?.any isIdentChar then none
    else (hexBytes (if ds.length % 2 = 0 then ds else '0' :: ds)).map fun b => (b, rest)
  | _ => none

/-- the first token, as far as the connector writes them. -/
inductive Token where
  | string (s : Str)
  | ident (s : Str)
  | hex (b : Bytes)
  deriving DecidableEq, Repr

def lex (s : Str) : Option (Token × Str) :=
  match s with
  | [] => none
  | c :: r =>
    if c = '"' then (lexString '"' r).map fun p => (.string p.1, p.2)
    else if c = '\'' then (lexString '\'' r).map fun p => (.string p.1, p.2)
    else if c = '`' then (lexIdent r).map fun p => (.ident p.1, p.2)
    else (lexHexLit s).map fun p => (.hex p.1, p.2)

/-- White_Space of the Unicode character database. -/
def whiteSpace : List Nat :=
  [0x9, 0xA, 0xB, 0xC, 0xD, 0x20, 0x85, 0xA0, 0x1680, 0x2000, 0x2001, 0x2002, 0x2003, 0x2004, 0x2005,
   0x2006, 0x2007, 0x2008, 0x2009, 0x200A, 0x2028, 0x2029, 0x202F, 0x205F, 0x3000]

/-- characters permitted in quoted identifiers: U+0001 .. U+FFFF. -/
def identAllowed (c : Char) : Bool := c.toNat ≠ 0 && c.toNat < 0x10000

/-- without trailing whitespace. -/
def trimEnd (s : Str) : Str := (s.reverse.dropWhile fun c => c.toNat ∈ whiteSpace).reverse

end Verif.Spec

import Verif.Spec.SqlTokens

/-!
# Spec: reading what `{:?}` prints

String literals as in Rust source text, and the text of an error of the server.
-/

namespace Verif.Spec

/-- hexadecimal digits up to the closing brace. -/
def hexUntil : Nat → Str → Option (Nat × Str)
  | _, [] => none
  | n, c :: r => if c = '}' then some (n, r) else (hexDigitVal c).bind fun d => hexUntil (16 * n + d) r

/-- the simple escapes of Rust's string literals. -/
def simpleEscape (c : Char) : Option Char :=
  if c = '0' then some '\x00' else if c = 't' then some '\t' else if c = 'r' then some '\r'
  else if c = 'n' then some '\n' else if c = '\\' then some '\\' else if c = '"' then some '"'
  else if c = '\'' then some '\'' else none

/-- the body of a string literal, and what follows its closing quote. -/
def literalN : Nat → Str → Option (Str × Str)
  | 0, _ => none
  | _, [] => none
  | n + 1, c :: r =>
    if c = '"' then some ([], r)
    else if c = '\\' then
      match r with
      | 'u' :: '{' :: r => (hexUntil 0 r).bind fun p => (literalN n p.2).map fun q => (Char.ofNat p.1 :: q.1, q.2)
      | e :: r => (simpleEscape e).bind fun d => (literalN n r).map fun q => (d :: q.1, q.2)
      | [] => none
    else (literalN n r).map fun q => (c :: q.1, q.2)

/-- a string literal at the beginning of the text. -/
def literal : Str → Option (Str × Str)
  | '"' :: r => literalN r.length r
  | _ => none

/-- fixed text at the beginning. -/
def expect (p s : Str) : Option Str := if p.isPrefixOf s then some (s.drop p.length) else none

/-- a number at the beginning. -/
def number (s : Str) : Option (Nat × Str) :=
  if s.takeWhile isDigit = [] then none else some (numVal (s.takeWhile isDigit), s.dropWhile isDigit)

/-- an error of the server as a whole text: its code, its state if there is one, its message. -/
def readError (s : Str) : Option (Nat × Option Str × Str) := do
  let s ← expect "Server(Error(ErrorPacket { code: ".toList s
  let (code, s) ← number s
  let (state, s) ← match expect ", state: ".toList s with
    | some s => (literal s).map fun p => (some p.1, p.2)
    | none => some (none, s)
  let s ← expect ", message: ".toList s
  let (msg, s) ← literal s
  if s = " }))".toList then some (code, state, msg) else none

/-- numbers between `, ` up to a closing bracket. -/
def numbersN : Nat → Str → Option (List Nat × Str)
  | 0, _ => none
  | n + 1, s => do
    let (k, s) ← number s
    match expect ", ".toList s with
    | some s => (numbersN n s).map fun p => (k :: p.1, p.2)
    | none => (expect "]".toList s).map fun s => ([k], s)

/-- a list of numbers in brackets. -/
def numberList (s : Str) : Option (List Nat × Str) :=
  match expect "[]".toList s with
  | some s => some ([], s)
  | none => (expect "[".toList s).bind fun s => numbersN s.length s

/-- a progress report of the server as a whole text: stage, last stage, progress, information. -/
def readProgress (s : Str) : Option (Nat × Nat × Nat × List Nat) := do
  let s ← expect "Server(Progress(ProgressPacket { stage: ".toList s
  let (stage, s) ← number s
  let s ← expect ", max_stage: ".toList s
  let (last, s) ← number s
  let s ← expect ", progress: ".toList s
  let (now, s) ← number s
  let s ← expect ", stage_info: ".toList s
  let (info, s) ← numberList s
  if s = " }))".toList then some (stage, last, now, info) else none

/-- a word at the beginning. -/
def word (s : Str) : Str × Str := (s.takeWhile Char.isAlphanum, s.dropWhile Char.isAlphanum)

/-- two authentication methods that do not agree: the one set, the one the server asks for. -/
def readMismatch (s : Str) : Option (Str × Str) := do
  let s ← expect "Runtime(AuthPluginMismatch(AuthPluginMismatch { current: ".toList s
  let s ← expect ", requested: ".toList (word s).2 |>.map fun r => ((word s).1, r)
  if (word s.2).2 = " }))".toList then some (s.1, (word s.2).1) else none

end Verif.Spec

import Verif.Spec.Debug
import Verif.Model.DebugTree

/-!
# Spec: reading a Rust value that has been printed

White space does not matter, a comma may follow the last entry.
-/

namespace Verif.Spec

inductive DbgTok where
  | opening (c : Char)
  | closing (c : Char)
  | comma
  | colon
  | word (s : Str)
  | text (s : Str)
  deriving DecidableEq, Repr

/-- the characters of words: all but blanks, line ends, brackets, commas, colons and quotes. -/
def plainChar (c : Char) : Bool := !(" \n(){}[],:\"".toList.contains c)

def lexN : Nat → Str → Option (List DbgTok)
  | _, [] => some []
  | 0, _ :: _ => none
  | n + 1, c :: r =>
    if c = ' ' ∨ c = '\n' then lexN n r
    else if c = '(' ∨ c = '{' ∨ c = '[' then (lexN n r).map (.opening c :: ·)
    else if c = ')' ∨ c = '}' ∨ c = ']' then (lexN n r).map (.closing c :: ·)
    else if c = ',' then (lexN n r).map (.comma :: ·)
    else if c = ':' then (lexN n r).map (.colon :: ·)
    else if c = '"' then (literal (c :: r)).bind fun p => (lexN n p.2).map (.text p.1 :: ·)
    else (lexN n (r.dropWhile plainChar)).map (.word (c :: r.takeWhile plainChar) :: ·)

/-- the tokens of a text. -/
def lexAll (s : Str) : Option (List DbgTok) := lexN s.length s

/-- before the value of a field its name. -/
def labelAt (e : Char) (toks : List DbgTok) : Option (Str × List DbgTok) :=
  if e = '}' then
    match toks with
    | .word l :: .colon :: r => some (l, r)
    | _ => none
  else some ([], toks)

/-- after an entry: a comma, or the end. -/
def afterEntry (e : Char) : List DbgTok → Option (Bool × List DbgTok)
  | .comma :: r => some (true, r)
  | .closing c :: r => if c = e then some (false, r) else none
  | _ => none

mutual
/-- a value at the beginning. -/
def itemN : Nat → List DbgTok → Option (Dbg × List DbgTok)
  | 0, _ => none
  | n + 1, .word w :: .opening c :: r =>
    if c = '(' then (itemsN n ')' r).map fun p => (.group .tuple w p.1, p.2)
    else if c = '{' then (itemsN n '}' r).map fun p => (.group .struct w p.1, p.2)
    else none
  | n + 1, .opening c :: r => if c = '[' then (itemsN n ']' r).map fun p => (.group .list [] p.1, p.2) else none
  | _ + 1, .word w :: r => some (.word w, r)
  | _ + 1, .text s :: r => some (.text s, r)
  | _ + 1, _ => none

/-- the entries up to the closing bracket `e`. -/
def itemsN : Nat → Char → List DbgTok → Option (DbgItems × List DbgTok)
  | 0, _, _ => none
  | n + 1, e, toks =>
    if toks.head? = some (.closing e) then some (.nil, toks.tail)
    else
      (labelAt e toks).bind fun p => (itemN n p.2).bind fun q => (afterEntry e q.2).bind fun a =>
        if a.1 then (itemsN n e a.2).map fun t => (.cons p.1 q.1 t.1, t.2) else some (.cons p.1 q.1 .nil, a.2)
end

/-- a text that is one value. -/
def readTree (s : Str) : Option Dbg :=
  (lexAll s).bind fun toks => (itemN (2 * toks.length + 1) toks).bind fun p => if p.2 = [] then some p.1 else none

/-! ### what can be read -/

/-- a word. -/
def plainWord (s : Str) : Prop := s ≠ [] ∧ s.all plainChar = true

mutual
/-- the names are words, tuples and structs are not empty. -/
def Readable : Dbg → Prop
  | .word s => plainWord s
  | .text _ => True
  | .group sh name items =>
    (if sh = .list then name = [] else plainWord name ∧ items.isNil = false) ∧ ReadableItems sh items

def ReadableItems (sh : DbgShape) : DbgItems → Prop
  | .nil => True
  | .cons l d r => (if sh = .struct then plainWord l else l = []) ∧ Readable d ∧ ReadableItems sh r
end

/-! ### what it is -/

def entries : DbgItems → List Dbg
  | .nil => []
  | .cons _ d r => d :: entries r

/-- the value of a field. -/
def fieldNamed (f : String) : DbgItems → Option Dbg
  | .nil => none
  | .cons l d r => if l = f.toList then some d else fieldNamed f r

/-- the only entry of a tuple with this name. -/
def inside (name : String) : Dbg → Option Dbg
  | .group .tuple n items =>
    match entries items with
    | [d] => if n = name.toList then some d else none
    | _ => none
  | _ => none

/-- the fields of a struct with this name. -/
def fieldsOf (name : String) : Dbg → Option DbgItems
  | .group .struct n items => if n = name.toList then some items else none
  | _ => none

def natOf : Dbg → Option Nat
  | .word w => if w ≠ [] ∧ w.all isDigit then some (numVal w) else none
  | _ => none

def intOf : Dbg → Option Int
  | .word ('-' :: w) => (natOf (.word w)).map fun n => -Int.ofNat n
  | d => (natOf d).map Int.ofNat

def boolOf : Dbg → Option Bool
  | .word w => if w = "true".toList then some true else if w = "false".toList then some false else none
  | _ => none

def textOf : Dbg → Option Str
  | .text s => some s
  | _ => none

def bytesOf : Dbg → Option Bytes
  | .group .list _ items => (entries items).mapM fun d => (natOf d).map UInt8.ofNat
  | _ => none

/-- a value of a cell; of floating point numbers the digits. -/
inductive Printed where
  | value (v : Value)
  | float (s : Str)
  | double (s : Str)
  deriving DecidableEq

/-- a value with one argument. -/
def printedOne (name : Str) (d : Dbg) : Option Printed :=
  if name = "Tiny".toList then (intOf d).map fun i => .value (.tiny (Int8.ofInt i))
  else if name = "Short".toList then (intOf d).map fun i => .value (.short (Int16.ofInt i))
  else if name = "Int".toList then (intOf d).map fun i => .value (.int (Int32.ofInt i))
  else if name = "Long".toList then (intOf d).map fun i => .value (.long (Int64.ofInt i))
  else if name = "UTiny".toList then (natOf d).map fun i => .value (.utiny (UInt8.ofNat i))
  else if name = "UShort".toList then (natOf d).map fun i => .value (.ushort (UInt16.ofNat i))
  else if name = "UInt".toList then (natOf d).map fun i => .value (.uint (UInt32.ofNat i))
  else if name = "ULong".toList then (natOf d).map fun i => .value (.ulong (UInt64.ofNat i))
  else if name = "Bytes".toList then (bytesOf d).map fun b => .value (.bytes b)
  else match d with
    | .word w =>
      if name = "Float".toList then some (.float w) else if name = "Double".toList then some (.double w) else none
    | _ => none

def printedOf : Dbg → Option Printed
  | .word w => if w = "Null".toList then some (.value .null) else none
  | .group .tuple name items =>
    match entries items with
    | [d] => printedOne name d
    | [y, m, d] =>
      if name = "Date".toList then do
        some (.value (.date (UInt16.ofNat (← natOf y)) (UInt8.ofNat (← natOf m)) (UInt8.ofNat (← natOf d))))
      else none
    | [neg, d, h, m, s, us] =>
      if name = "Time".toList then do
        some (.value (.time (← boolOf neg) (UInt32.ofNat (← natOf d)) (UInt8.ofNat (← natOf h)) (UInt8.ofNat (← natOf m))
          (UInt8.ofNat (← natOf s)) (UInt32.ofNat (← natOf us))))
      else none
    | [y, mo, d, h, m, s, us] =>
      if name = "Datetime".toList then do
        some (.value (.datetime (UInt16.ofNat (← natOf y)) (UInt8.ofNat (← natOf mo)) (UInt8.ofNat (← natOf d))
          (UInt8.ofNat (← natOf h)) (UInt8.ofNat (← natOf m)) (UInt8.ofNat (← natOf s)) (UInt32.ofNat (← natOf us))))
      else none
    | _ => none
  | _ => none

def typeNames : List (String × ValueType) :=
  [("Number", .number), ("Tiny", .tiny), ("Short", .short), ("Int", .int), ("Long", .long), ("UTiny", .utiny),
   ("UShort", .ushort), ("UInt", .uint), ("ULong", .ulong), ("Float", .float), ("Double", .double), ("Bytes", .bytes),
   ("Date", .date), ("Time", .time), ("Datetime", .datetime)]

def typeOf : Dbg → Option ValueType
  | .word w => (typeNames.find? fun p => decide (p.1.toList = w)).map (·.2)
  | _ => none

/-- what an answer of the server could not be used for. -/
inductive Refusal where
  | missing (field : Str)
  | rowLength
  | wrong (expected : ValueType) (got : Printed)
  | invalid (t : ValueType) (b : Bytes)
  | bounds (got : Printed)
  | flags (kind : Str) (n : Nat)
  deriving DecidableEq

/-- as it is in the text of the error. -/
def refusalOf (d : Dbg) : Option Refusal :=
  match d with
  | .word w => if w = "RowLengthMismatch".toList then some .rowLength else none
  | .group .tuple name items =>
    match entries items with
    | [x] =>
      if name = "MissingField".toList then (textOf x).map .missing
      else if name = "WrongValue".toList then
        (fieldsOf "WrongValue" x).bind fun fs => ((fieldNamed "expected" fs).bind typeOf).bind fun t =>
          ((fieldNamed "got" fs).bind printedOf).map fun v => .wrong t v
      else if name = "ValueOutOfBounds".toList then (printedOf x).map .bounds
      else if name = "UnknownBitflags".toList then
        match x with
        | .group .tuple kind k =>
          match entries k with
          | [n] => (natOf n).map fun n => .flags kind n
          | _ => none
        | _ => none
      else none
    | [t, b] =>
      if name = "InvalidValue".toList then (typeOf t).bind fun t => (bytesOf b).map fun b => .invalid t b else none
    | _ => none
  | _ => none

/-- the whole text of an error about an answer. -/
def readRefusal (s : Str) : Option Refusal :=
  (readTree s).bind fun d => (inside "Protocol" d).bind fun d => (inside "Parse" d).bind refusalOf

/-- an error of the server: code, state, message. -/
def readServerError (s : Str) : Option (Nat × Option Str × Str) :=
  (readTree s).bind fun d => (inside "Server" d).bind fun d => (inside "Error" d).bind fun d =>
    (fieldsOf "ErrorPacket" d).bind fun fs => ((fieldNamed "code" fs).bind natOf).bind fun code =>
      ((fieldNamed "message" fs).bind textOf).map fun msg => (code, (fieldNamed "state" fs).bind textOf, msg)

/-- the bytes of a packet that nobody expected. -/
def readUnexpected (s : Str) : Option Bytes :=
  (readTree s).bind fun d => (inside "Protocol" d).bind fun d => (inside "UnexpectedPacket" d).bind fun d =>
    match fieldsOf "UnexpectedPacket" d with
    | some fs => (fieldNamed "got" fs).bind bytesOf
    | none => (inside "UnexpectedPacket" d).bind bytesOf

/-- the password in printed options. -/
def readPassword (s : Str) : Option Str :=
  (readTree s).bind fun d => (fieldsOf "ConnectionOptions" d).bind fun fs => (fieldNamed "password" fs).bind textOf

end Verif.Spec

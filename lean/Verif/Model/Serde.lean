import Verif.Model.Display
import Verif.Model.Utf8

/-!
# `Hex` with serde (feature `serde`)

Mirrors `src/types/hex.rs` 59-80.  What a `Serialize` implementation tells the format, and what a format hands to the
visitor of a `Deserialize` implementation, are calls of serde's data model; here they are data.
-/

namespace Verif

/-- the calls of a `Serializer` that are used. -/
inductive Ser where
  | str (s : Str)
  | newtypeStruct (name : Str) (inner : Ser)
  deriving DecidableEq, Repr

/-- what a `Deserializer` does when asked for a string (`deserialize_str`): the method of the visitor that it calls.
`borrowed…` lend a part of the input for its whole lifetime, `str`/`bytes` for the call only, `string`/`byteBuf` give
away a copy; `other` stands for all calls that carry no text. -/
inductive Visit where
  | borrowedStr (s : Str)
  | str (s : Str)
  | string (s : Str)
  | borrowedBytes (b : Bytes)
  | bytes (b : Bytes)
  | byteBuf (b : Bytes)
  | newtypeStruct (inner : Visit)
  | other
  deriving DecidableEq, Repr

inductive DeError where
  | invalidType
  | invalidValue
  | custom (e : HexError)
  deriving DecidableEq, Repr

/-- hex.rs 61-68 `Serialize for Hex`. -/
def hexSerialize (bs : Bytes) : Ser := .newtypeStruct "Hex".toList (.str (hexDisplay bs))

/-- crate `serde`, `Deserialize for &str`: its visitor has `visit_borrowed_str` and `visit_borrowed_bytes`. -/
def strVisitor : Visit → Except DeError Str
  | .borrowedStr s => .ok s
  | .borrowedBytes b =>
    match fromUtf8 b with
    | some s => .ok s
    | none => .error .invalidValue
  | _ => .error .invalidType

/-- hex.rs 72-80 `Deserialize for Hex`. -/
def hexDeserialize (v : Visit) : Out DeError Bytes :=
  match strVisitor v with
  | .error e => .err e
  | .ok s => (hexFromStr (utf8 s)).mapErr .custom

end Verif

import Verif.Model.FieldType

/-!
# Spec: which field types are plain columns

As documented by the list of supported types; a path may be written from any segment on, and may also
have segments in front of the full path.
-/

namespace Verif.Spec

/-- the names of the supported types, from the crate on. -/
def supported : List String :=
  ["i8", "i16", "i32", "i64", "u8", "u16", "u32", "u64", "f32", "f64", "bool", "std::string::String",
   "chrono::NaiveDate", "chrono::NaiveDateTime", "chrono::Duration", "mysql_connector::types::Hex"]

/-- the segments of a path. -/
def segments : Str → List Str
  | [] => [[]]
  | ':' :: ':' :: r => [] :: segments r
  | c :: r =>
    match segments r with
    | s :: ss => (c :: s) :: ss
    | [] => [[c]]

/-- one of the two is the end of the other. -/
def Agree (a b : List Str) : Prop := a <:+ b ∨ b <:+ a

def IsNamed (p : TyPath) (name : String) : Prop := Agree p.idents (segments name.toList)

/-- a plain type without `Option`. -/
inductive Basic : TyPath → Prop
  | named {p n} : n ∈ supported → IsNamed p n → Basic p
  | bytes {p q} : IsNamed p "std::vec::Vec" → p.arg = some q → IsNamed q "u8" → Basic p

inductive Plain : TyPath → Prop
  | basic {p} : Basic p → Plain p
  | option {p q} : IsNamed p "std::option::Option" → p.arg = some q → Basic q → Plain p

end Verif.Spec

import Verif.Model.Serde

/-!
# Spec: data formats

A format stores what it is told and hands it out again.  Formats differ in whether a struct with one field is stored as
that field (JSON, YAML, bincode) or with its name (RON), and in how a text is handed out: lent from the input
(`serde_json::from_str`), shown for the duration of a call (`serde_json::from_reader`, texts with escapes) or as a copy
(`serde_json::from_value`, TOML).
-/

namespace Verif.Spec

inductive Handing where
  | lent
  | shown
  | copied
  deriving DecidableEq, Repr

structure Format where
  /-- a struct with one field is stored as this field. -/
  plainNewtypes : Bool
  texts : Handing
  deriving DecidableEq, Repr

/-- what is handed out when a string is asked for where this was stored. -/
def Format.handOut (f : Format) : Ser → Visit
  | .str s =>
    match f.texts with
    | .lent => .borrowedStr s
    | .shown => .str s
    | .copied => .string s
  | .newtypeStruct _ x => if f.plainNewtypes then f.handOut x else .newtypeStruct (f.handOut x)

end Verif.Spec

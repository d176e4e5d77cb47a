import Verif.Model.Wire

/-!
# Classification of field types by the derive macros

Mirrors `TypeComplexity::from_path` in `macros/src/parse.rs`.
-/

namespace Verif

/-- `syn::Path`, as far as it is looked at: the identifiers of the segments, and the type path that is
the only generic argument of the last segment, if there is one (macros/src/parse.rs 178-192
`get_last_arguments_path`).  `syn` never yields a path without segments. -/
inductive TyPath where
  | mk (idents : List Str) (arg : Option TyPath)

def TyPath.idents : TyPath → List Str | mk i _ => i
def TyPath.arg : TyPath → Option TyPath | mk _ a => a

/-- macros/src/parse.rs 61-65 `SimpleStruct`: the path, and fields with column suffixes. -/
structure SimpleStruct where
  path : TyPath
  fields : List (Str × Str)

inductive TypeComplexity where
  | simple
  | struct (s : SimpleStruct)
  | complex

/-- 153-163 `path_eq`: `for i in 0..len`. -/
def pathEq (a b : TyPath) : Bool :=
  if a.idents.length ≠ b.idents.length then false
  else (a.idents.zip b.idents).all fun x => x.1 == x.2

/-- 165-176 `path_matches`: the loop from the ends, here over the reversed lists. -/
def matchesRev : List Str → List Str → Bool
  | a :: as, b :: bs => if a ≠ b then false else matchesRev as bs
  | _, _ => true

def pathMatches (a : TyPath) (b : List Str) : Bool := matchesRev a.idents.reverse b.reverse

/-- 195-212 `SIMPLE`. -/
def simplePaths : List (List Str) :=
  [["i8".toList], ["i16".toList], ["i32".toList], ["i64".toList], ["u8".toList], ["u16".toList],
   ["u32".toList], ["u64".toList], ["f32".toList], ["f64".toList], ["bool".toList],
   ["std".toList, "string".toList, "String".toList], ["chrono".toList, "NaiveDate".toList],
   ["chrono".toList, "NaiveDateTime".toList], ["chrono".toList, "Duration".toList],
   ["mysql_connector".toList, "types".toList, "Hex".toList]]

/-- 194-229 `is_simple(path, false)`. -/
def isSimpleInner (p : TyPath) : Bool :=
  if simplePaths.any (pathMatches p ·) then true
  else if pathMatches p ["std".toList, "vec".toList, "Vec".toList] then
    match p.arg with
    | some q => pathMatches q ["u8".toList]
    | none => false
  else false

/-- 194-229 `is_simple(path, true)`. -/
def isSimple (p : TyPath) : Bool :=
  if simplePaths.any (pathMatches p ·) then true
  else
    match (if pathMatches p ["std".toList, "vec".toList, "Vec".toList] then p.arg else none) with
    | some q => pathMatches q ["u8".toList]
    | none =>
      if pathMatches p ["std".toList, "option".toList, "Option".toList] then
        match p.arg with
        | some q => isSimpleInner q
        | none => false
      else false

/-- 231-237 `from_path`. -/
def TypeComplexity.fromPath (p : TyPath) (types : List SimpleStruct) : TypeComplexity :=
  if isSimple p then .simple
  else
    match types.find? fun t => pathEq t.path p with
    | some t => .struct t
    | none => .complex

end Verif

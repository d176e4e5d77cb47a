import Verif.Model.Value

/-!
# Models: generated query and row mapping

Mirrors `src/model/into_query.rs`, `src/model/from_query_result.rs` and the derive macros in
`macros/src/lib.rs` for a tree of model definitions.

A model is given by its table, its primary key, the names of its plain columns, its flattened structs
and its references.  The mapping struct generated by the macro (one `Option<usize>` per column, one
mapping per reference) is the function from field paths and columns to `Option`; a model value is the
list of its leaves in the order of evaluation.  The conversion of each value to the type of the field
(C25 … C27) is left out.
-/

namespace Verif

mutual
/-- a type that derives ModelData, IntoQuery, FromQueryResult, Model. -/
inductive ModelDef where
  | mk (table primary : Str) (plain : List Str) (structs : List (Str × List Str)) (refs : RefDefs)

/-- the fields of other model types, in order. -/
inductive RefDefs where
  | nil
  | cons (field : Str) (model : ModelDef) (rest : RefDefs)
end

namespace ModelDef

def table : ModelDef → Str | mk t _ _ _ _ => t
def primary : ModelDef → Str | mk _ p _ _ _ => p
def refs : ModelDef → RefDefs | mk _ _ _ _ r => r

/-- macros/src/lib.rs 372-385: plain columns, then `{field}_{name}` of the structs' fields. -/
def cols : ModelDef → List Str
  | mk _ _ plain structs _ => plain ++ structs.flatMap fun s => s.2.map fun n => s.1 ++ '_' :: n

end ModelDef

/-! ### the query -/

/-- into_query.rs 28-38 `join`, the string appended to `join`. -/
def joinText (ns field : Str) (m : ModelDef) : Str :=
  " join `".toList ++ m.table ++ "` as `".toList ++ (ns ++ '.' :: field) ++ "` on (`".toList ++ ns ++
    "`.`".toList ++ field ++ "` = `".toList ++ (ns ++ '.' :: field) ++ "`.`".toList ++ m.primary ++ "`)".toList

/-- into_query.rs 47-51. -/
def columnText (ns col : Str) : Str := '`' :: ns ++ "`.`".toList ++ col ++ ['`']

/-- 65-70, 32-37: the plain columns, `i` their position in the list. -/
def appendCols (ns : Str) : Nat → List Str → Str × Str → Str × Str
  | _, [], a => a
  | i, c :: cs, a =>
    appendCols ns (i + 1) cs (a.1 ++ (if i ≠ 0 then ", ".toList else []) ++ columnText ns c, a.2)

mutual
/-- into_query.rs 32-37, 65-70: the loop over the columns of a model; `(select, join)`. -/
def appendModel (ns : Str) : ModelDef → Str × Str → Str × Str
  | .mk t p plain structs refs, a =>
    appendRefs ns (ModelDef.mk t p plain structs refs).cols.length refs
      (appendCols ns 0 (ModelDef.mk t p plain structs refs).cols a)

/-- the references among the columns. -/
def appendRefs (ns : Str) : Nat → RefDefs → Str × Str → Str × Str
  | _, .nil, a => a
  | i, .cons f m r, a =>
    appendRefs ns (i + 1) r
      (appendModel (ns ++ '.' :: f) m
        (a.1 ++ (if i ≠ 0 then ", ".toList else []), a.2 ++ joinText ns f m))
end

/-- into_query.rs 62-74 `build_query`. -/
def buildQuery (m : ModelDef) : Str :=
  let a := appendModel m.table m ("select ".toList, [])
  a.1 ++ " from `".toList ++ m.table ++ "`".toList ++ a.2

/-! ### the mapping -/

/-- the mapping structs: field path and column to index. -/
abbrev Mapping := List Str → Str → Option Nat

/-- `str::strip_prefix`. -/
def stripPrefix (p s : Str) : Option Str := if p.isPrefixOf s then some (s.drop p.length) else none

mutual
/-- from_query_result.rs 6-14 `set_mapping`: which (nested) mapping struct a column of `table` goes
to, and whether it has a field of this name. -/
def route (table col : Str) : ModelDef → Option (List Str)
  | .mk t p plain structs refs =>
    routeInner ((stripPrefix (t ++ ['.']) table).getD table) col
      (ModelDef.mk t p plain structs refs).cols refs

/-- macros/src/lib.rs 126-175 `set_mapping_inner`: the chain of `else if` over the references, at the
end the own columns. -/
def routeInner (table col : Str) (cols : List Str) : RefDefs → Option (List Str)
  | .nil => if col ∈ cols then some [] else none
  | .cons f m r =>
    if table = f then (route [] col m).map (f :: ·)
    else if (f ++ ['.']).isPrefixOf table then (route (table.drop (f.length + 1)) col m).map (f :: ·)
    else routeInner table col cols r
end

def Mapping.set (mp : Mapping) (p : List Str) (c : Str) (i : Nat) : Mapping :=
  fun p' c' => if p' = p ∧ c' = c then some i else mp p' c'

/-- from_query_result.rs 16-22 `from_columns`, for columns given by alias and original name. -/
def fromColumnsAt (m : ModelDef) : Nat → List (Str × Str) → Mapping → Mapping
  | _, [], mp => mp
  | i, (table, col) :: cs, mp =>
    fromColumnsAt m (i + 1) cs
      (match route table col m with
       | some p => mp.set p col i
       | none => mp)

def fromColumns (m : ModelDef) (cs : List (Str × Str)) : Mapping := fromColumnsAt m 0 cs fun _ _ => none

inductive MapErr where
  | missing (path : List Str) (col : Str)
  deriving DecidableEq, Repr

mutual
/-- the leaves of a model value in the order in which `from_mapping_and_row` reads them
(macros/src/lib.rs 195-203). -/
def leaves : ModelDef → List (List Str × Str)
  | .mk t p plain structs refs =>
    (ModelDef.mk t p plain structs refs).cols.map (fun c => ([], c)) ++ leavesRefs refs

def leavesRefs : RefDefs → List (List Str × Str)
  | .nil => []
  | .cons f m r => (leaves m).map (fun l => (f :: l.1, l.2)) ++ leavesRefs r
end

/-- `row[mapping.field.ok_or(MissingField)?].take()` for every leaf. -/
def readLeaves (mp : Mapping) : List (List Str × Str) → List Value → Out MapErr (List ((List Str × Str) × Value))
  | [], _ => .ok []
  | (p, c) :: ls, row =>
    match mp p c with
    | none => .err (.missing p c)
    | some i =>
      match row[i]? with
      | none => .panic
      | some v =>
        match readLeaves mp ls (row.set i .null) with
        | .ok vs => .ok (((p, c), v) :: vs)
        | .err e => .err e
        | .panic => .panic

/-- `from_mapping_and_row`. -/
def fromMappingAndRow (m : ModelDef) (mp : Mapping) (row : List Value) :
    Out MapErr (List ((List Str × Str) × Value)) :=
  readLeaves mp (leaves m) row

end Verif

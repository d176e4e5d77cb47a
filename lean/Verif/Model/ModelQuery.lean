import Verif.Model.Orm
import Verif.Model.Query
import Verif.Model.Convert

/-!
# Reading rows as models

Mirrors what `#[derive(FromQueryResult)]` (macros/src/lib.rs 70-207) makes of a row read by a result
set (`src/connection/result_set.rs` 66-89): the mapping from the columns, then per field of the model
`row[i].take().try_into()?`.  The conversions into the fields' types are a parameter; for the types of
`Model/Convert.lean` it is `tryInto` or `tryIntoOpt`.  In the error `MissingField` the name of the
struct is left out.
-/

namespace Verif

/-- macros/src/lib.rs 103-110, 195-203: the fields in the order of evaluation, each taken out of the
row and converted. -/
def readFields {X : Type} (conv : List Str × Str → Value → Out ParseError X) (mp : Mapping) :
    List (List Str × Str) → List Value → Out ParseError (List ((List Str × Str) × X))
  | [], _ => .ok []
  | (p, c) :: ls, row =>
    match mp p c with
    | none => .err (.missingField c)
    | some i =>
      match row[i]? with
      | none => .panic
      | some v =>
        match conv (p, c) v with
        | .err e => .err e
        | .panic => .panic
        | .ok x =>
          match readFields conv mp ls (row.set i .null) with
          | .ok xs => .ok (((p, c), x) :: xs)
          | .err e => .err e
          | .panic => .panic

/-- from_query_result.rs 16-22: `column.table()` and `column.org_name()` of the columns. -/
def columnKeys (cols : List Column) : List (Str × Str) := cols.map fun col => (col.table, col.orgName)

/-- `R = ` a derived model. -/
def buildModel {X : Type} (conv : List Str × Str → Value → Out ParseError X) (m : ModelDef)
    (cols : List Column) (row : List Value) : Out ParseError (List ((List Str × Str) × X)) :=
  readFields conv (fromColumns m (columnKeys cols)) (leaves m) row

end Verif

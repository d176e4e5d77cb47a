import Verif.Model.Active
import Verif.Spec.SqlTokens

/-!
# Spec: insert and update statements; inserting a tree of rows

How a server reads the two statements, and which rows are to be inserted for a tree of active models.
-/

namespace Verif.Spec

/-- a list of names separated by commas and closed by `)`. -/
def parseNames : List Tok → Option (List Str × List Tok)
  | .name c :: .punct ',' :: r => (parseNames r).map fun x => (c :: x.1, x.2)
  | .name c :: .punct ')' :: r => some ([c], r)
  | _ => none

/-- a list of placeholders separated by commas and closed by `)`. -/
def parseMarks : List Tok → Option (Nat × List Tok)
  | .punct '?' :: .punct ',' :: r => (parseMarks r).map fun x => (x.1 + 1, x.2)
  | .punct '?' :: .punct ')' :: r => some (1, r)
  | _ => none

structure InsertStmt where
  table : Str
  columns : List Str
  marks : Nat
  deriving DecidableEq, Repr

/-- `insert into t (…) values (…)`; both lists may be empty. -/
def parseInsert : List Tok → Option InsertStmt
  | .word w1 :: .word w2 :: .name t :: .punct '(' :: r =>
    if w1 = "insert".toList ∧ w2 = "into".toList then
      match (match r with | .punct ')' :: r' => some ([], r') | _ => parseNames r) with
      | some (cols, .word w3 :: .punct '(' :: r) =>
        if w3 = "values".toList then
          match (match r with | .punct ')' :: r' => some (0, r') | _ => parseMarks r) with
          | some (n, []) => some { table := t, columns := cols, marks := n }
          | _ => none
        else none
      | _ => none
    else none
  | _ => none

structure UpdateStmt where
  table : Str
  columns : List Str
  key : Str
  deriving DecidableEq, Repr

/-- assignments of placeholders, up to `where`. -/
def parseSets : List Tok → Option (List Str × List Tok)
  | .name c :: .punct '=' :: .punct '?' :: .punct ',' :: r => (parseSets r).map fun x => (c :: x.1, x.2)
  | .name c :: .punct '=' :: .punct '?' :: .word w :: r => if w = "where".toList then some ([c], r) else none
  | _ => none

/-- `update t set … where key = ?`; at least one assignment. -/
def parseUpdate : List Tok → Option UpdateStmt
  | .word w1 :: .name t :: .word w2 :: r =>
    if w1 = "update".toList ∧ w2 = "set".toList then
      match parseSets r with
      | some (cols, [.name k, .punct '=', .punct '?']) => some { table := t, columns := cols, key := k }
      | _ => none
    else none
  | _ => none

/-- the number of parameters a server reports for a statement. -/
def placeholders (ts : List Tok) : Nat := ts.count (.punct '?')

/-! ### rows -/

/-- what is known of a field: its name and its value. -/
abbrev Field := Str × Value

/-- an inserted row: table, the fields given, the id the server assigned. -/
structure Row where
  table : Str
  fields : List Field
  id : UInt64
  deriving DecidableEq, Repr

/-- the plain and struct fields that are set, in declaration order, with convertible values. -/
inductive PlainSet : List (Str × Option (Out SerializeError Value)) → List Field → Prop
  | nil : PlainSet [] []
  | unset {n r fs} : PlainSet r fs → PlainSet ((n, none) :: r) fs
  | set {n v r fs} : PlainSet r fs → PlainSet ((n, some (.ok v)) :: r) ((n, v) :: fs)

inductive StructSet : List (Str × Option (List (Str × Out SerializeError Value))) → List Field → Prop
  | nil : StructSet [] []
  | unset {n r fs} : StructSet r fs → StructSet ((n, none) :: r) fs
  | set {n r fs} (ms : List (Str × Value)) : StructSet r fs →
      StructSet ((n, some (ms.map fun x => (x.1, .ok x.2))) :: r)
        (ms.map (fun x => (n ++ '_' :: x.1, x.2)) ++ fs)

/-- the first of the set fields that cannot be converted, and the error. -/
inductive PlainBad : List (Str × Option (Out SerializeError Value)) → SerializeError → Prop
  | here {n e r} : PlainBad ((n, some (.err e)) :: r) e
  | unset {n r e} : PlainBad r e → PlainBad ((n, none) :: r) e
  | set {n v r e} : PlainBad r e → PlainBad ((n, some (.ok v)) :: r) e

inductive MembersBad : List (Str × Out SerializeError Value) → SerializeError → Prop
  | here {n e r} : MembersBad ((n, .err e) :: r) e
  | later {n v r e} : MembersBad r e → MembersBad ((n, .ok v) :: r) e

inductive StructBad : List (Str × Option (List (Str × Out SerializeError Value))) → SerializeError → Prop
  | here {n ms r e} : MembersBad ms e → StructBad ((n, some ms) :: r) e
  | unset {n r e} : StructBad r e → StructBad ((n, none) :: r) e
  | later {n r e} (ms : List (Str × Value)) : StructBad r e →
      StructBad ((n, some (ms.map fun x => (x.1, .ok x.2))) :: r) e

/-- the row's own key: given with it, or assigned by the server. -/
inductive KeyOf : ActiveModel → UInt64 → Value → Prop
  | own {t p plain structs refs id v} : (p, some (.ok v)) ∈ plain → KeyOf (.mk t (some p) plain structs refs) id v
  | assigned {t p plain structs refs id} : (∀ v, (p, some (.ok v)) ∉ plain) →
      KeyOf (.mk t (some p) plain structs refs) id (.ulong id)
  | without {t plain structs refs id} : KeyOf (.mk t none plain structs refs) id (.ulong id)

mutual
/-- inserting `m` means: first the rows of its references (`Referred`), then one row with exactly the
set fields and the keys of the references. -/
inductive Inserted : ActiveModel → List Row → UInt64 → Prop
  | mk {t p plain structs refs fs gs log fks id} : PlainSet plain fs → StructSet structs gs →
      Referred refs log fks →
      Inserted (.mk t p plain structs refs) (log ++ [{ table := t, fields := fs ++ gs ++ fks, id := id }]) id

inductive Referred : ActiveRefs → List Row → List Field → Prop
  | nil : Referred .nil [] []
  | unset {f r log fks} : Referred r log fks → Referred (.unset f r) log fks
  | set {f v r log fks} : Referred r log fks → Referred (.set f v r) log ((f, v) :: fks)
  | insert {f m r log id k log' fks} : Inserted m log id → KeyOf m id k → Referred r log' fks →
      Referred (.insert f m r) (log ++ log') ((f, k) :: fks)
end

/-- rows executed one after the other on a connection; `text` is the statement for a row. -/
inductive Executed (text : Str → List Str → Str) : Conn → List Row → Conn → Prop
  | nil {c} : Executed text c [] c
  | cons {c row p c1 ok c2 rows c3} :
      prepareStatement (text row.table (row.fields.map (·.1))) c = (.ok p, c1) →
      p.execute (row.fields.map (·.2)) c1 = (.ok ok, c2) → ok.lastInsertId = row.id →
      Executed text c2 rows c3 → Executed text c (row :: rows) c3

mutual
/-- inserting `m` has come as far as `log`; `next` is the row to be inserted then, or why a field of it
cannot be converted (and nothing of it has been sent). -/
inductive Begun : ActiveModel → List Row → Except SerializeError (Str × List Field) → Prop
  | plain {t p plain structs refs e} : PlainBad plain e → Begun (.mk t p plain structs refs) [] (.error e)
  | structs {t p plain structs refs fs e} : PlainSet plain fs → StructBad structs e →
      Begun (.mk t p plain structs refs) [] (.error e)
  | refs {t p plain structs refs fs gs log next} : PlainSet plain fs → StructSet structs gs →
      BegunRefs refs log next → Begun (.mk t p plain structs refs) log next
  | own {t p plain structs refs fs gs log fks} : PlainSet plain fs → StructSet structs gs →
      Referred refs log fks → Begun (.mk t p plain structs refs) log (.ok (t, fs ++ gs ++ fks))

inductive BegunRefs : ActiveRefs → List Row → Except SerializeError (Str × List Field) → Prop
  | unset {f r log next} : BegunRefs r log next → BegunRefs (.unset f r) log next
  | set {f v r log next} : BegunRefs r log next → BegunRefs (.set f v r) log next
  | inside {f m r log next} : Begun m log next → BegunRefs (.insert f m r) log next
  | after {f m r log id log' next} : Inserted m log id → BegunRefs r log' next →
      BegunRefs (.insert f m r) (log ++ log') next
end

/-- the row `next` fails with `e`: nothing sent, or preparing or executing its statement fails, and
nothing else happens. -/
inductive Failed (text : Str → List Str → Str) :
    Conn → Except SerializeError (Str × List Field) → Error → Conn → Prop
  | convert {c e} : Failed text c (.error e) (.protocol (.serialize e)) c
  | prepare {c t fs e c'} : prepareStatement (text t (fs.map (·.1))) c = (.err e, c') →
      Failed text c (.ok (t, fs)) e c'
  | execute {c t fs p c1 e c'} : prepareStatement (text t (fs.map (·.1))) c = (.ok p, c1) →
      p.execute (fs.map (·.2)) c1 = (.err e, c') → Failed text c (.ok (t, fs)) e c'

/-- rustc sees to distinct field names. -/
def ActiveModel.Distinct : ActiveModel → Prop
  | .mk _ _ plain _ _ => (plain.map (·.1)).Nodup

mutual
def allDistinct : ActiveModel → Prop
  | .mk t p plain structs refs => ActiveModel.Distinct (.mk t p plain structs refs) ∧ allDistinctRefs refs

def allDistinctRefs : ActiveRefs → Prop
  | .nil => True
  | .set _ _ r => allDistinctRefs r
  | .insert _ m r => allDistinct m ∧ allDistinctRefs r
  | .unset _ r => allDistinctRefs r
end

end Verif.Spec

import Verif.Model.Orm
import Verif.Spec.SqlTokens

/-!
# Spec: select statements over joined tables

What a server answers to a select of qualified columns: result columns named by table alias and
column, and rows of the values of these columns.
-/

namespace Verif.Spec

mutual
/-- `m` has, along the references `path`, the column `col`. -/
inductive HasField : ModelDef → List Str → Str → Prop where
  | own {m : ModelDef} {c : Str} : c ∈ m.cols → HasField m [] c
  | sub {m : ModelDef} {p : List Str} {c : Str} : HasRef m.refs p c → HasField m p c

inductive HasRef : RefDefs → List Str → Str → Prop where
  | here {f : Str} {m : ModelDef} {r : RefDefs} {p : List Str} {c : Str} :
      HasField m p c → HasRef (.cons f m r) (f :: p) c
  | there {f : Str} {m : ModelDef} {r : RefDefs} {p : List Str} {c : Str} :
      HasRef r p c → HasRef (.cons f m r) p c
end

/-- the alias for the table a path of references leads to. -/
def aliasOf (table : Str) (path : List Str) : Str := table ++ path.flatMap fun f => '.' :: f

/-- a join: `join table as alias on (parent.field = alias.key)`. -/
structure Join where
  table : Str
  alias : Str
  parent : Str
  field : Str
  key : Str
  deriving DecidableEq, Repr

mutual
/-- every reference is joined, parents first. -/
def joinsOf (ns : Str) : ModelDef → List Join
  | .mk _ _ _ _ refs => joinsRefs ns refs

def joinsRefs (ns : Str) : RefDefs → List Join
  | .nil => []
  | .cons f m r =>
    { table := m.table, alias := ns ++ '.' :: f, parent := ns, field := f, key := m.primary } ::
      joinsOf (ns ++ '.' :: f) m ++ joinsRefs ns r
end

/-- a select statement: columns qualified by alias, table, joins. -/
structure Select where
  items : List (Str × Str)
  table : Str
  joins : List Join
  deriving DecidableEq, Repr

def parseJoins : List Tok → Option (List Join)
  | [] => some []
  | .word w1 :: .name t :: .word w2 :: .name a :: .word w3 :: .punct '(' :: .name p :: .punct '.' ::
      .name f :: .punct '=' :: .name a' :: .punct '.' :: .name k :: .punct ')' :: r =>
    if w1 = "join".toList ∧ w2 = "as".toList ∧ w3 = "on".toList ∧ a' = a then
      (parseJoins r).map ({ table := t, alias := a, parent := p, field := f, key := k } :: ·)
    else none
  | _ => none

def parseItems : List Tok → Option (List (Str × Str) × List Tok)
  | .name a :: .punct '.' :: .name c :: .punct ',' :: r =>
    (parseItems r).map fun x => ((a, c) :: x.1, x.2)
  | .name a :: .punct '.' :: .name c :: .word w :: r =>
    if w = "from".toList then some ([(a, c)], r) else none
  | _ => none

/-- reading a select statement. -/
def parseSelect : List Tok → Option Select
  | .word w :: r =>
    if w = "select".toList then
      match parseItems r with
      | some (items, .name t :: r') => (parseJoins r').map fun js => { items := items, table := t, joins := js }
      | _ => none
    else none
  | _ => none

/-- the result set: columns by alias and original name, and a row with the value of each; `val` gives
the values of the joined row. -/
def Select.columns (s : Select) : List (Str × Str) := s.items
def Select.row (s : Select) (val : Str → Str → Value) : List Value := s.items.map fun i => val i.1 i.2

mutual
/-- Sensible definitions: names without backquote, table and field names also without point, at least
one column, distinct names (rustc sees to this), and no reference field called like the model's own
table. -/
def ModelDef.Sound : ModelDef → Prop
  | .mk t p plain structs refs =>
    '`' ∉ t ∧ '.' ∉ t ∧ '`' ∉ p ∧ (ModelDef.mk t p plain structs refs).cols ≠ [] ∧
    (ModelDef.mk t p plain structs refs).cols.Nodup ∧
    (∀ c ∈ (ModelDef.mk t p plain structs refs).cols, '`' ∉ c) ∧ RefDefs.Sound t refs

/-- references of a model of table `t`. -/
def RefDefs.Sound (t : Str) : RefDefs → Prop
  | .nil => True
  | .cons f m r =>
    f ≠ [] ∧ '.' ∉ f ∧ '`' ∉ f ∧ f ≠ t ∧ fresh f r ∧ ModelDef.Sound m ∧ RefDefs.Sound t r

/-- no reference of this name. -/
def fresh (f : Str) : RefDefs → Prop
  | .nil => True
  | .cons g _ r => f ≠ g ∧ fresh f r
end

end Verif.Spec

import Verif.Model.FieldType
import Verif.Model.Orm
import Verif.Model.Active

/-!
# The derive macros

Mirrors `macros/src/lib.rs` and `macros/src/parse.rs` from the syntax tree of a struct declaration to
what the generated code says: table, key, columns, the mapping of result columns, active models.
Parsing Rust (crate `syn`) is not modelled; the trees below are what `syn` hands to the macros, as far
as they look at it.  Error messages are kept as data, their spans are left out.
-/

namespace Verif

/-- `proc_macro2::Ident`: `raw` for `r#text`. -/
structure Ident where
  raw : Bool
  text : Str
  deriving DecidableEq, Repr

/-- `Ident::to_string` and `stringify!`. -/
def Ident.str (i : Ident) : Str := if i.raw then 'r' :: '#' :: i.text else i.text

/-- `format_ident!("{}_{}", a, b)`: `r#` is dropped from the parts. -/
def Ident.join (a b : Ident) : Ident := { raw := false, text := a.text ++ '_' :: b.text }

/-- Which texts `Ident::new` and `Ident::new_raw` (the latter without `r#`) accept; they panic for all
others.  The tables of Unicode behind this are not modelled: the theorems hold for every choice. -/
structure IdentRules where
  plain : Str → Bool
  raw : Str → Bool

/-- `Ident::new`. -/
def Ident.new (rules : IdentRules) (s : Str) : Option Ident :=
  if rules.plain s then some { raw := false, text := s } else none

/-- `format_ident!("{s}")` for a string: `r#` makes a raw identifier (crate `quote`). -/
def Ident.format (rules : IdentRules) (s : Str) : Option Ident :=
  match s with
  | 'r' :: '#' :: t => if rules.raw t then some { raw := true, text := t } else none
  | t => Ident.new rules t

/-- the type of a field: `Type::Path` or another one. -/
inductive FieldTy where
  | path (p : TyPath)
  | other

structure FieldSyn where
  ident : Ident
  ty : FieldTy

inductive DataSyn where
  | enum | unnamed | unit | union
  | named (fields : List FieldSyn)

/-- a field of a struct expression `T { member: expr }`; the member may be a tuple index, the
expression a path or something else. -/
structure FieldValSyn where
  member : Option Ident
  colon : Bool
  expr : Option (List Ident)

inductive MetaVal where
  | str (s : Str)
  | struct (path : TyPath) (fields : List FieldValSyn)
  | other

/-- `key = value` in an attribute; the key is a single identifier or another path. -/
structure MetaSyn where
  key : Option Str
  val : MetaVal

/-- an attribute of the item: `#[mysql_connector(…)]` (`none`: what is in it is not a list of
`key = value`), or another one. -/
inductive AttrSyn where
  | other
  | ours (args : Option (List MetaSyn))

/-- `DeriveInput`. -/
structure Item where
  attrs : List AttrSyn
  data : DataSyn

/-- the messages. -/
inductive MacroErr where
  | noEnum | noUnnamed | noUnit | noUnion | fieldType
  | expectedIdent | expectedSingle | expectedIdentifier | expectedStruct | expectedStr
  | syntax | noAttribute
  | needTable | needPrimary | primaryNotFound | needAutoIncrement
  deriving DecidableEq, Repr

/-! ### parse.rs -/

/-- the column suffixes of a flattened struct keep their identifiers (parse.rs 61-65). -/
structure StructSyn where
  path : TyPath
  fields : List (Ident × Ident)

/-- parse.rs 144-149 `TypeComplexity`. -/
inductive FieldKind where
  | simple
  | struct (s : StructSyn)
  | complex

/-- parse.rs 231-237, the end of `from_path`. -/
def FieldKind.fromPath (p : TyPath) (types : List StructSyn) : FieldKind :=
  if isSimple p then .simple
  else
    match types.find? fun t => pathEq t.path p with
    | some t => .struct t
    | none => .complex

/-- parse.rs 12-17 `NamedField`. -/
structure Field where
  kind : FieldKind
  ident : Ident
  ty : TyPath

/-- parse.rs 30-45: the loop over the named fields. -/
def parseNamed (types : List StructSyn) : List FieldSyn → List MacroErr × List Field
  | [] => ([], [])
  | f :: fs =>
    let r := parseNamed types fs
    match f.ty with
    | .path p => (r.1, { kind := .fromPath p types, ident := f.ident, ty := p } :: r.2)
    | .other => (.fieldType :: r.1, r.2)

/-- parse.rs 19-59 `parse_fields`. -/
def parseFields (data : DataSyn) (types : List StructSyn) : List MacroErr × List Field :=
  match data with
  | .enum => ([.noEnum], [])
  | .unnamed => ([.noUnnamed], [])
  | .unit => ([.noUnit], [])
  | .union => ([.noUnion], [])
  | .named fs => parseNamed types fs

/-- parse.rs 96-122: the fields of `ty = T { … }`; `none`: the macro panics (`unreachable!`). -/
def parseMembers : List FieldValSyn → Option (List MacroErr × List (Ident × Ident))
  | [] => some ([], [])
  | f :: fs =>
    match f.member with
    | none => none
    | some m =>
      let here : MacroErr ⊕ Ident :=
        if f.colon then
          match f.expr with
          | some [i] => .inr i
          | some _ => .inl .expectedSingle
          | none => .inl .expectedIdentifier
        else .inr m
      (parseMembers fs).map fun r =>
        match here with
        | .inl e => (e :: r.1, r.2)
        | .inr i => (r.1, (m, i) :: r.2)

/-- parse.rs 72-137: what an attribute gives: messages, strings (the last of a key counts), structs. -/
structure Parsed where
  errors : List MacroErr
  map : List (Str × Str)
  types : List StructSyn

/-- `HashMap::get`, `contains_key`. -/
def Parsed.get (p : Parsed) (key : Str) : Option Str := (p.map.find? (·.1 = key)).map (·.2)

/-- parse.rs 79-133: the loop over `key = value`; later strings are in front. -/
def parseMetas : List MetaSyn → Parsed → Option Parsed
  | [], a => some a
  | m :: ms, a =>
    match m.key with
    | none => parseMetas ms { a with errors := a.errors ++ [.expectedIdent] }
    | some key =>
      match m.val with
      | .str s => parseMetas ms { a with map := (key, s) :: a.map }
      | .struct p fs =>
        if key = "ty".toList then
          match parseMembers fs with
          | none => none
          | some r => parseMetas ms { a with
              errors := a.errors ++ r.1
              types := a.types ++ [{ path := p, fields := r.2 }] }
        else parseMetas ms { a with errors := a.errors ++ [.expectedStr] }
      | .other =>
        parseMetas ms { a with
          errors := a.errors ++ [if key = "ty".toList then .expectedStruct else .expectedStr] }

/-- parse.rs 67-142 `parse_attr`: the first attribute of this name; whether there is one. -/
def parseAttr : List AttrSyn → Option (Bool × Parsed)
  | [] => some (false, { errors := [.noAttribute], map := [], types := [] })
  | .other :: r => parseAttr r
  | .ours none :: _ => some (true, { errors := [.syntax], map := [], types := [] })
  | .ours (some ms) :: _ =>
    (parseMetas ms { errors := [], map := [], types := [] }).map fun p => (true, p)

/-! ### lib.rs -/

/-- a macro either panics, or reports messages, or generates code. -/
abbrev Derive (α : Type) := Out (List MacroErr) α

/-- `if let Some(error) = error.error() { return … }`. -/
def Derive.finish {α : Type} (errors : List MacroErr) (a : α) : Derive α :=
  if errors = [] then .ok a else .err errors

/-- lib.rs 41-68 `derive_model_data`: `TABLE`. -/
def deriveModelData (item : Item) : Derive Str :=
  match parseAttr item.attrs with
  | none => .panic
  | some (found, p) =>
    let errors := p.errors ++ (if found ∧ (p.get "table".toList).isNone then [.needTable] else [])
    Derive.finish errors ((p.get "table".toList).getD [])

/-- the fields of one kind. -/
def simpleOf (fs : List Field) : List Ident :=
  fs.filterMap fun f => match f.kind with | .simple => some f.ident | _ => none

def structsOf (fs : List Field) : List (Ident × StructSyn) :=
  fs.filterMap fun f => match f.kind with | .struct s => some (f.ident, s) | _ => none

def complexOf (fs : List Field) : List (Ident × TyPath) :=
  fs.filterMap fun f => match f.kind with | .complex => some (f.ident, f.ty) | _ => none

/-- What `FromQueryResult` generates: the fields of the mapping struct, with the text they are found
by; the references. -/
structure MappingGen where
  simple : List Ident
  structs : List (Ident × List (Ident × Ident))
  complex : List (Ident × TyPath)

/-- lib.rs 70-207 `derive_from_query_result`; for each flattened field the members and the names of
the mapping's fields (97-101). -/
def deriveFromQueryResult (item : Item) : Derive MappingGen :=
  match parseAttr item.attrs with
  | none => .panic
  | some (_, p) =>
    let r := parseFields item.data p.types
    Derive.finish (p.errors ++ r.1)
      { simple := simpleOf r.2
        structs := (structsOf r.2).map fun f => (f.1, f.2.fields.map fun m => (m.1, f.1.join m.2))
        complex := complexOf r.2 }

/-- the identifiers of the fields of the mapping struct (lib.rs 180-184). -/
def MappingGen.idents (g : MappingGen) : List Ident :=
  g.simple ++ g.structs.flatMap (fun f => f.2.map (·.2)) ++ g.complex.map (·.1)

/-- `COLUMNS` (lib.rs 401-409): names of plain columns, references. -/
structure QueryGen where
  columns : List Str
  refs : List (Str × TyPath)

/-- lib.rs 360-412 `derive_into_query`. -/
def deriveIntoQuery (item : Item) : Derive QueryGen :=
  match parseAttr item.attrs with
  | none => .panic
  | some (_, p) =>
    let r := parseFields item.data p.types
    Derive.finish (p.errors ++ r.1)
      { columns := (simpleOf r.2).map Ident.str ++
          (structsOf r.2).flatMap fun f => f.2.fields.map fun m => f.1.str ++ '_' :: m.2.str
        refs := (complexOf r.2).map fun f => (f.1.str, f.2) }

/-- `PRIMARY`, `AUTO_INCREMENT`, the type `Primary`. -/
structure ModelGen where
  primary : Str
  autoIncrement : Bool
  primaryTy : TyPath

/-- lib.rs 425-434: `primary`. -/
def primaryErrors (p : Parsed) (fs : List Field) : List MacroErr :=
  match p.get "primary".toList with
  | some k => if (fs.find? fun f => f.ident.str = k).isNone then [.primaryNotFound] else []
  | none => [.needPrimary]

/-- lib.rs 435-441: `auto_increment`. -/
def autoErrors (p : Parsed) : List MacroErr :=
  if (p.get "auto_increment".toList).isNone then [.needAutoIncrement] else []

/-- lib.rs 414-466 `derive_model`; `Ident::new` (450) panics for `r#…`, which is found at 426. -/
def deriveModel (rules : IdentRules) (item : Item) : Derive ModelGen :=
  match parseAttr item.attrs with
  | none => .panic
  | some (found, p) =>
    let r := parseFields item.data p.types
    let errors := p.errors ++ r.1 ++ (if found then primaryErrors p r.2 ++ autoErrors p else [])
    if errors ≠ [] then .err errors
    else
      match p.get "primary".toList with
      | none => .panic
      | some k =>
        match r.2.find? fun f => f.ident.str = k with
        | none => .panic
        | some f =>
          match Ident.new rules k with
          | none => .panic
          | some _ =>
            .ok { primary := k
                  autoIncrement := decide (p.get "auto_increment".toList = some "true".toList)
                  primaryTy := f.ty }

/-- What `ActiveModel` generates: names sent for the fields that are set, key, auto increment. -/
structure ActiveGen where
  simple : List Ident
  structs : List (Ident × List (Ident × Str))
  complex : List (Ident × TyPath)
  primary : Option (Ident × Bool)

/-- lib.rs 217-232: the key, if given; `none`: `format_ident!` (220) panics, before any message is
reported. -/
def activePrimary (rules : IdentRules) (found : Bool) (p : Parsed) :
    Option (List MacroErr × Option (Ident × Bool)) :=
  if found then
    match p.get "primary".toList with
    | none => some ([], none)
    | some k =>
      match p.get "auto_increment".toList with
      | none => some ([.needAutoIncrement], none)
      | some ai => (Ident.format rules k).map fun i => ([], some (i, decide (ai = "true".toList)))
  else some ([], none)

/-- lib.rs 209-358 `derive_active_model`. -/
def deriveActiveModel (rules : IdentRules) (item : Item) : Derive ActiveGen :=
  match parseAttr item.attrs with
  | none => .panic
  | some (found, p) =>
    let r := parseFields item.data p.types
    match activePrimary rules found p with
    | none => .panic
    | some (e, primary) =>
      Derive.finish (p.errors ++ r.1 ++ e)
        { simple := simpleOf r.2
          structs := (structsOf r.2).map fun f =>
            (f.1, f.2.fields.map fun m => (m.1, (f.1.join m.2).str))
          complex := complexOf r.2
          primary := primary }

/-! ### a program

A declaration comes with the declarations of the types of its reference fields, in the order of these
fields; rustc finds them by the paths of the types. -/

mutual
inductive Decl where
  | mk (item : Item) (uses : Uses)

inductive Uses where
  | nil
  | cons (decl : Decl) (rest : Uses)
end

/-- `TABLE`, `PRIMARY`, and names of columns and references, if all macros generate code. -/
structure Names where
  table : Str
  primary : Str
  columns : List Str
  refs : List Str

/-- the side that asks: `COLUMNS`. -/
def queryNames (rules : IdentRules) (item : Item) : Option Names :=
  match deriveModelData item, deriveModel rules item, deriveIntoQuery item with
  | .ok t, .ok m, .ok q =>
    some { table := t, primary := m.primary, columns := q.columns, refs := q.refs.map (·.1) }
  | _, _, _ => none

/-- the side that reads: the names in `set_mapping_inner` (lib.rs 142, 159-160). -/
def mappingNames (rules : IdentRules) (item : Item) : Option Names :=
  match deriveModelData item, deriveModel rules item, deriveFromQueryResult item with
  | .ok t, .ok m, .ok g =>
    some { table := t
           primary := m.primary
           columns := g.simple.map Ident.str ++ g.structs.flatMap fun f => f.2.map fun x => x.2.str
           refs := g.complex.map fun f => f.1.str }
  | _, _, _ => none

mutual
/-- the tree of definitions that `names` makes of a program; the columns are given flat. -/
def Decl.toDef (names : Item → Option Names) : Decl → Option ModelDef
  | .mk item uses =>
    match names item with
    | none => none
    | some n => (usesToRefs names n.refs uses).map fun r => .mk n.table n.primary n.columns [] r

def usesToRefs (names : Item → Option Names) : List Str → Uses → Option RefDefs
  | [], .nil => some .nil
  | f :: fs, .cons d rest =>
    match d.toDef names, usesToRefs names fs rest with
    | some m, some r => some (.cons f m r)
    | _, _ => none
  | _, _ => none
end

/-- what is sent in the query. -/
def Decl.queryDef (rules : IdentRules) (d : Decl) : Option ModelDef := d.toDef (queryNames rules)

/-- what the rows are read by. -/
def Decl.mappingDef (rules : IdentRules) (d : Decl) : Option ModelDef := d.toDef (mappingNames rules)

end Verif

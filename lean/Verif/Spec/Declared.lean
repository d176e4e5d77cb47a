import Verif.Model.Derive
import Verif.Spec.FieldType
import Verif.Spec.Orm

/-!
# Spec: struct declarations with `#[mysql_connector(…)]`

What a declaration says, without reference to how the macros go through it.
-/

namespace Verif.Spec

/-- `ms` is what is written in the first attribute of the library. -/
def FirstAttr (item : Item) (ms : List MetaSyn) : Prop :=
  ∃ before after, item.attrs = before ++ .ours (some ms) :: after ∧ ∀ a ∈ before, a = .other

/-- `key = "s"` is written, and not again behind it. -/
def Says (ms : List MetaSyn) (key s : Str) : Prop :=
  ∃ before after m, ms = before ++ m :: after ∧ m.key = some key ∧ m.val = .str s ∧
    ∀ m' ∈ after, ∀ s', ¬(m'.key = some key ∧ m'.val = .str s')

/-- `member` or `member: name`. -/
def GoodMember (f : FieldValSyn) : Prop := f.member.isSome ∧ (f.colon = true → ∃ i, f.expr = some [i])

/-- `key = "…"` or `ty = Path { … }`. -/
def GoodMeta (m : MetaSyn) : Prop :=
  ∃ key, m.key = some key ∧ ((∃ s, m.val = .str s) ∨
    key = "ty".toList ∧ ∃ p fs, m.val = .struct p fs ∧ ∀ f ∈ fs, GoodMember f)

/-- The declarations that can be derived from: a struct with named fields whose types are paths, with an
attribute that gives table, key and auto increment, the key being one of the fields. -/
def Acceptable (rules : IdentRules) (item : Item) : Prop :=
  ∃ ms fields table key auto,
    FirstAttr item ms ∧ (∀ m ∈ ms, GoodMeta m) ∧
    item.data = .named fields ∧ (∀ f ∈ fields, ∃ p, f.ty = .path p) ∧
    Says ms "table".toList table ∧ Says ms "primary".toList key ∧ Says ms "auto_increment".toList auto ∧
    (∃ f ∈ fields, f.ident.str = key) ∧ rules.plain key = true

/-- In Rust `r#…` is not accepted by `Ident::new`. -/
def SaneRules (rules : IdentRules) : Prop := ∀ t, rules.plain ('r' :: '#' :: t) = false

/-! ### columns -/

/-- the suffix written for a member of a flattened struct. -/
def SuffixOf (f : FieldValSyn) (s : Ident) : Prop :=
  (f.colon = true ∧ f.expr = some [s]) ∨ (f.colon = false ∧ f.member = some s)

/-- the first `ty = q { fs }` with the path of the type `p`. -/
def FirstTy (ms : List MetaSyn) (p q : TyPath) (fs : List FieldValSyn) : Prop :=
  ∃ before after m, ms = before ++ m :: after ∧ m.val = .struct q fs ∧ q.idents = p.idents ∧
    ∀ m' ∈ before, ∀ q' fs', m'.val = .struct q' fs' → q'.idents ≠ p.idents

/-- the column `c` belongs to the field `i` of type `p`: its own name for a plain type, the name with a
suffix for a flattened struct. -/
def ColumnOf (ms : List MetaSyn) (i : Ident) (p : TyPath) (c : Str) : Prop :=
  (Plain p ∧ c = i.text) ∨
  (¬ Plain p ∧ ∃ q fs f s, FirstTy ms p q fs ∧ f ∈ fs ∧ SuffixOf f s ∧ c = i.text ++ '_' :: s.text)

/-- the type of a reference to another model. -/
def IsReference (ms : List MetaSyn) (p : TyPath) : Prop := ¬ Plain p ∧ ∀ q fs, ¬ FirstTy ms p q fs

/-- no raw identifier is used for a field or a suffix. -/
def NoRaw (item : Item) : Prop :=
  (∀ fs, item.data = .named fs → ∀ f ∈ fs, f.ident.raw = false) ∧
  ∀ ms, FirstAttr item ms → ∀ m ∈ ms, ∀ p fs, m.val = .struct p fs → ∀ f ∈ fs, ∀ s, SuffixOf f s → s.raw = false

end Verif.Spec

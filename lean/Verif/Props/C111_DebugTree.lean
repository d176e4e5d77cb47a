import Verif.Model.Convert
import Verif.Proofs.DebugTree

/-!
# C111 — what is printed of a failure, on one line or on several, has exactly one reading
-/

namespace Verif

open Spec (Readable ReadableItems plainWord plainChar Printed Refusal)

/-- **C111** (trees): whatever is printed in one of the two forms is read as what it is: strings with quotes,
brackets, commas or line ends in them included. -/
theorem C111_tree (special : Char → Bool) (d : Dbg) (h : Readable d) :
    Spec.readTree (d.compact special) = some d ∧ Spec.readTree (d.pretty special) = some d :=
  ⟨readTree_lexes false d h (compact_lexes special d h), readTree_lexes true d h (pretty_lexes special d h)⟩

/-- Two things printed alike, in any of the two forms each, are the same. -/
theorem C111_distinct (special special' : Char → Bool) (d d' : Dbg) (h : Readable d) (h' : Readable d')
    (he : d.compact special = d'.compact special' ∨ d.compact special = d'.pretty special' ∨
      d.pretty special = d'.pretty special') : d = d' := by
  obtain ⟨a, b⟩ := C111_tree special d h
  obtain ⟨a', b'⟩ := C111_tree special' d' h'
  rcases he with e | e | e
  · rw [e, a'] at a; exact (Option.some.inj a).symm
  · rw [e, b'] at a; exact (Option.some.inj a).symm
  · rw [e, b'] at b; exact (Option.some.inj b).symm

/-! ### numbers and bytes -/

theorem decStr_plain (n : Nat) : plainWord (decStr n) := by
  obtain ⟨_, h2, h3⟩ := numVal_decStr n
  refine ⟨h2, List.all_eq_true.2 fun c hc => ?_⟩
  have := h3 c hc
  unfold Spec.isDigit at this
  cases hp : plainChar c with
  | true => rfl
  | false =>
    unfold plainChar at hp
    simp only [Bool.not_eq_false', List.contains_iff_mem] at hp
    have hall : ∀ x ∈ " \n(){}[],:\"".toList, Spec.isDigit x = false := by decide
    have h0 := hall c hp
    unfold Spec.isDigit at h0
    rw [this] at h0
    cases h0

theorem natOf_nat (n : Nat) : Spec.natOf (.nat n) = some n := by
  obtain ⟨h1, h2, h3⟩ := numVal_decStr n
  unfold Dbg.nat Spec.natOf
  dsimp only
  rw [if_pos ⟨h2, by simpa using h3⟩, h1]

theorem intStr_plain (i : Int) : plainWord (intStr i) := by
  unfold intStr
  have := decStr_plain i.natAbs
  split
  · refine ⟨by simp, ?_⟩
    rw [List.singleton_append, List.all_cons, this.2]
    decide
  · exact this

theorem intOf_int (i : Int) : Spec.intOf (.int i) = some i := by
  obtain ⟨h1, h2, h3⟩ := numVal_decStr i.natAbs
  have hn := natOf_nat i.natAbs
  unfold Dbg.int intStr
  split
  · rename_i h
    rw [List.singleton_append, Spec.intOf]
    show (Spec.natOf (.word (decStr i.natAbs))).map _ = _
    rw [show Spec.natOf (.word (decStr i.natAbs)) = some i.natAbs from hn]
    simp only [Option.map_some, Option.some.injEq, Int.ofNat_eq_natCast]
    omega
  · rename_i h
    rw [Spec.intOf.eq_2]
    · rw [show Spec.natOf (.word (decStr i.natAbs)) = some i.natAbs from hn]
      simp only [Option.map_some, Option.some.injEq, Int.ofNat_eq_natCast]
      omega
    · intro w hw
      have e : decStr i.natAbs = '-' :: w := by injection hw
      have := h3 '-' (by rw [e]; simp)
      revert this
      decide

theorem nat_readable (n : Nat) : Readable (.nat n) := by
  unfold Dbg.nat
  rw [Readable]
  exact decStr_plain n

theorem int_readable (i : Int) : Readable (.int i) := by
  unfold Dbg.int
  rw [Readable]
  exact intStr_plain i

theorem list_readable (sh : DbgShape) (h : sh ≠ .struct) (ds : List Dbg) (hd : ∀ d ∈ ds, Readable d) :
    ReadableItems sh (.ofList ds) := by
  induction ds with
  | nil => rw [DbgItems.ofList, ReadableItems]; trivial
  | cons d ds ih =>
    rw [DbgItems.ofList, ReadableItems, if_neg h]
    exact ⟨rfl, hd d (by simp), ih fun x hx => hd x (by simp [hx])⟩

theorem entries_ofList (ds : List Dbg) : Spec.entries (.ofList ds) = ds := by
  induction ds with
  | nil => rfl
  | cons d ds ih => rw [DbgItems.ofList, Spec.entries, ih]

theorem bytes_readable (b : Bytes) : Readable (.bytes b) := by
  unfold Dbg.bytes Dbg.list
  rw [Readable, if_pos rfl]
  refine ⟨rfl, list_readable .list (by decide) _ fun d hd => ?_⟩
  obtain ⟨x, _, rfl⟩ := List.mem_map.1 hd
  exact nat_readable _

theorem bytesOf_bytes (b : Bytes) : Spec.bytesOf (.bytes b) = some b := by
  unfold Dbg.bytes Dbg.list
  rw [Spec.bytesOf, entries_ofList]
  induction b with
  | nil => rfl
  | cons x b ih =>
    rw [List.map_cons, List.mapM_cons, natOf_nat, ih]
    simp

theorem tuple_readable (name : String) (ds : List Dbg) (hn : plainWord name.toList) (h0 : ds ≠ [])
    (hd : ∀ d ∈ ds, Readable d) : Readable (.tuple name ds) := by
  unfold Dbg.tuple
  rw [Readable, if_neg (by decide)]
  refine ⟨⟨hn, ?_⟩, list_readable .tuple (by decide) ds hd⟩
  cases ds with
  | nil => exact absurd rfl h0
  | cons _ _ => rfl

theorem struct_readable (name : String) (fs : List (String × Dbg)) (hn : plainWord name.toList) (h0 : fs ≠ [])
    (hf : ∀ f ∈ fs, plainWord f.1.toList ∧ Readable f.2) : Readable (.struct name fs) := by
  unfold Dbg.struct
  rw [Readable, if_neg (by decide)]
  refine ⟨⟨hn, ?_⟩, ?_⟩
  · cases fs with
    | nil => exact absurd rfl h0
    | cons _ _ => rfl
  · clear h0
    induction fs with
    | nil => rw [List.map_nil, DbgItems.ofFields, ReadableItems]; trivial
    | cons f fs ih =>
      rw [List.map_cons, DbgItems.ofFields, ReadableItems, if_pos rfl]
      obtain ⟨h1, h2⟩ := hf f (by simp)
      exact ⟨h1, h2, ih fun x hx => hf x (by simp [hx])⟩

instance (s : Str) : Decidable (plainWord s) := inferInstanceAs (Decidable (_ ∧ _))

theorem name_readable (s : String) (h : plainWord s.toList) : Readable (.name s) := by
  unfold Dbg.name
  rw [Readable]
  exact h

theorem bool_readable (b : Bool) : Readable (.bool b) := by
  cases b <;> exact name_readable _ (by decide)

theorem boolOf_bool (b : Bool) : Spec.boolOf (.bool b) = some b := by
  cases b <;> rfl

/-! ### values -/

/-- what can be seen of a value: of floating point numbers their digits. -/
def Spec.seenOf (env : DebugEnv) : Value → Printed
  | .float x => .float (env.f32 x)
  | .double x => .double (env.f64 x)
  | v => .value v

/-- what other code prints can be read: digits of floating point numbers are words. -/
structure Spec.Prints (env : DebugEnv) : Prop where
  f32 : ∀ x, plainWord (env.f32 x)
  f64 : ∀ x, plainWord (env.f64 x)

theorem value_readable (env : DebugEnv) (he : Spec.Prints env) (v : Value) : Readable (v.dbg env) := by
  cases v with
  | null => exact name_readable _ (by decide)
  | float x =>
    refine tuple_readable _ _ (by decide) (by simp) ?_
    simp only [List.mem_singleton, forall_eq, Readable]
    exact he.f32 x
  | double x =>
    refine tuple_readable _ _ (by decide) (by simp) ?_
    simp only [List.mem_singleton, forall_eq, Readable]
    exact he.f64 x
  | _ =>
    refine tuple_readable _ _ (by decide) (by simp) ?_
    simp only [List.mem_cons, List.not_mem_nil, or_false, forall_eq_or_imp, forall_eq, nat_readable, int_readable,
      bytes_readable, bool_readable, and_self]

theorem printedOf_value (env : DebugEnv) (v : Value) : Spec.printedOf (v.dbg env) = some (Spec.seenOf env v) := by
  cases v <;>
    simp [Value.dbg, Dbg.tuple, Dbg.name, Spec.printedOf, entries_ofList, Spec.printedOne, natOf_nat, intOf_int,
      bytesOf_bytes, boolOf_bool, Spec.seenOf]

/-- **C111** (values): the text of a value in either form says which value it is; of floating point numbers it has the
digits. -/
theorem C111_value (special : Char → Bool) (env : DebugEnv) (he : Spec.Prints env) (v : Value) :
    (Spec.readTree ((v.dbg env).compact special)).bind Spec.printedOf = some (Spec.seenOf env v) ∧
    (Spec.readTree ((v.dbg env).pretty special)).bind Spec.printedOf = some (Spec.seenOf env v) := by
  obtain ⟨h1, h2⟩ := C111_tree special _ (value_readable env he v)
  rw [h1, h2]
  exact ⟨printedOf_value env v, printedOf_value env v⟩

/-! ### answers that could not be used -/

/-- what the error is about. -/
def Spec.refusal (env : DebugEnv) : ParseError → Option Refusal
  | .missingField f => some (.missing f)
  | .rowLengthMismatch => some .rowLength
  | .wrongValue t v => some (.wrong t (Spec.seenOf env v))
  | .invalidValue t b => some (.invalid t b)
  | .valueOutOfBounds v => some (.bounds (Spec.seenOf env v))
  | .unknownBitflags (.status n) => some (.flags "Status".toList n.toNat)
  | .unknownBitflags (.capability n) => some (.flags "Capability".toList n.toNat)
  | .unknownBitflags (.column n) => some (.flags "Column".toList n.toNat)
  | .unknownBitflags (.columnType n) => some (.flags "ColumnType".toList n.toNat)
  | .utf8 => none
  | .fromUtf8 => none

theorem typeOf_name (t : ValueType) : Spec.typeOf (.name t.debugName) = some t ∧ plainWord t.debugName.toList := by
  cases t <;> decide

theorem flags_readable (f : InvalidFlags) : Readable f.dbg := by
  cases f <;>
    (refine tuple_readable _ _ (by decide) (by simp) ?_
     simp only [List.mem_singleton, forall_eq, nat_readable])

theorem parse_readable (env : DebugEnv) (he : Spec.Prints env) (hu : Readable env.utf8) (hf : Readable env.fromUtf8)
    (e : ParseError) : Readable (e.dbg env) := by
  cases e with
  | missingField f =>
    refine tuple_readable _ _ (by decide) (by simp) ?_
    simp only [List.mem_singleton, forall_eq, Readable]
  | rowLengthMismatch => exact name_readable _ (by decide)
  | wrongValue t v =>
    refine tuple_readable _ _ (by decide) (by simp) ?_
    simp only [List.mem_singleton, forall_eq]
    refine struct_readable _ _ (by decide) (by simp) ?_
    simp only [List.mem_cons, List.not_mem_nil, or_false, forall_eq_or_imp, forall_eq]
    exact ⟨⟨by decide, name_readable _ (typeOf_name t).2⟩, by decide, value_readable env he v⟩
  | invalidValue t b =>
    refine tuple_readable _ _ (by decide) (by simp) ?_
    simp only [List.mem_cons, List.not_mem_nil, or_false, forall_eq_or_imp, forall_eq]
    exact ⟨name_readable _ (typeOf_name t).2, bytes_readable b⟩
  | valueOutOfBounds v =>
    refine tuple_readable _ _ (by decide) (by simp) ?_
    simp only [List.mem_singleton, forall_eq]
    exact value_readable env he v
  | unknownBitflags f =>
    refine tuple_readable _ _ (by decide) (by simp) ?_
    simp only [List.mem_singleton, forall_eq]
    exact flags_readable f
  | utf8 =>
    refine tuple_readable _ _ (by decide) (by simp) ?_
    simp only [List.mem_singleton, forall_eq]
    exact hu
  | fromUtf8 =>
    refine tuple_readable _ _ (by decide) (by simp) ?_
    simp only [List.mem_singleton, forall_eq]
    exact hf

theorem inside_tuple (name : String) (d : Dbg) : Spec.inside name (.tuple name [d]) = some d := by
  unfold Dbg.tuple Spec.inside
  simp [entries_ofList]

theorem fieldsOf_struct (name : String) (fs : List (String × Dbg)) :
    Spec.fieldsOf name (.struct name fs) = some (.ofFields (fs.map fun f => (f.1.toList, f.2))) := by
  unfold Dbg.struct Spec.fieldsOf
  simp

/-- the value of a field in a list of fields. -/
def fieldAt (f : String) : List (String × Dbg) → Option Dbg
  | [] => none
  | (g, d) :: r => if g = f then some d else fieldAt f r

theorem fieldNamed_fields (f : String) (fs : List (String × Dbg)) :
    Spec.fieldNamed f (.ofFields (fs.map fun f => (f.1.toList, f.2))) = fieldAt f fs := by
  induction fs with
  | nil => rfl
  | cons g fs ih =>
    rw [List.map_cons, DbgItems.ofFields, Spec.fieldNamed, ih, fieldAt]
    simp only [String.toList_inj]

theorem field_here (f : String) (d : Dbg) (r : List (String × Dbg)) : fieldAt f ((f, d) :: r) = some d := if_pos rfl

theorem field_next (f g : String) (d : Dbg) (r : List (String × Dbg)) (h : g ≠ f) :
    fieldAt f ((g, d) :: r) = fieldAt f r := if_neg h

theorem refusalOf_parse (env : DebugEnv) (e : ParseError) : (Spec.refusal env e).isSome →
    Spec.refusalOf (e.dbg env) = Spec.refusal env e := by
  intro h
  cases e with
  | unknownBitflags f =>
    cases f <;> simp [ParseError.dbg, InvalidFlags.dbg, Dbg.tuple, Spec.refusalOf, entries_ofList, natOf_nat, Spec.refusal]
  | wrongValue t v =>
    have hf : Spec.fieldsOf "WrongValue" (.struct "WrongValue" [("expected", .name t.debugName), ("got", v.dbg env)])
        = _ := fieldsOf_struct _ _
    unfold ParseError.dbg Dbg.tuple Spec.refusalOf
    simp only [entries_ofList]
    rw [if_neg (by decide), if_pos trivial, hf]
    dsimp only [Option.bind_some]
    rw [fieldNamed_fields, fieldNamed_fields]
    simp only [field_here, field_next, Option.bind_some, String.reduceEq, ne_eq, not_false_eq_true]
    rw [(typeOf_name t).1, printedOf_value]
    rfl
  | utf8 => simp [Spec.refusal] at h
  | fromUtf8 => simp [Spec.refusal] at h
  | invalidValue t b =>
    simp [ParseError.dbg, Dbg.tuple, Spec.refusalOf, entries_ofList, (typeOf_name t).1, bytesOf_bytes, Spec.refusal]
  | missingField f => simp [ParseError.dbg, Dbg.tuple, Spec.refusalOf, entries_ofList, Spec.textOf, Spec.refusal]
  | rowLengthMismatch => simp [ParseError.dbg, Dbg.name, Spec.refusalOf, Spec.refusal]
  | valueOutOfBounds v =>
    simp [ParseError.dbg, Dbg.tuple, Spec.refusalOf, entries_ofList, printedOf_value, Spec.refusal]

/-- **C111** (answers): if an answer could not be used, the text of the error in either form says exactly why: the name of
the missing field, the type that was expected and the value that was there, the bytes that are not such a value, the value
out of bounds, the bits without a meaning. -/
theorem C111_refusal (special : Char → Bool) (env : DebugEnv) (he : Spec.Prints env) (e : ParseError) (r : Refusal)
    (hr : Spec.refusal env e = some r) :
    Spec.readRefusal (((Error.protocol (.parse e)).dbg env).compact special) = some r ∧
    Spec.readRefusal (((Error.protocol (.parse e)).dbg env).pretty special) = some r := by
  have hs : (Spec.refusal env e).isSome := by rw [hr]; rfl
  have h1 : Readable ((Error.protocol (.parse e)).dbg env) := by
    refine tuple_readable _ _ (by decide) (by simp) ?_
    simp only [List.mem_singleton, forall_eq]
    refine tuple_readable _ _ (by decide) (by simp) ?_
    simp only [List.mem_singleton, forall_eq]
    have hp := parse_readable { env with utf8 := .nat 0, fromUtf8 := .nat 0 } ⟨he.f32, he.f64⟩ (nat_readable 0)
      (nat_readable 0) e
    have : ∀ v : Value, v.dbg { env with utf8 := .nat 0, fromUtf8 := .nat 0 } = v.dbg env := by intro v; cases v <;> rfl
    cases e <;> first | (simp [Spec.refusal] at hs; done) | (simpa only [ParseError.dbg, this] using hp)
  have h2 : Spec.readRefusal = fun s => (Spec.readTree s).bind fun d =>
    (Spec.inside "Protocol" d).bind fun d => (Spec.inside "Parse" d).bind Spec.refusalOf := rfl
  obtain ⟨t1, t2⟩ := C111_tree special _ h1
  rw [h2]
  dsimp only
  rw [t1, t2]
  have e1 : (Error.protocol (.parse e)).dbg env = .tuple "Protocol" [.tuple "Parse" [e.dbg env]] := rfl
  dsimp only [Option.bind_some]
  rw [e1, inside_tuple]
  dsimp only [Option.bind_some]
  rw [inside_tuple]
  dsimp only [Option.bind_some]
  rw [refusalOf_parse env e hs, hr]
  exact ⟨rfl, rfl⟩

/-- the type named in the message when a value is not one of the type asked for. -/
def Spec.wanted : ScalarTy → ValueType
  | .i8 => .tiny | .i16 => .short | .i32 => .int | .i64 => .long
  | .u8 => .utiny | .u16 => .ushort | .u32 => .uint | .u64 => .ulong
  | .f32 => .float | .f64 => .double | .bool => .number | .string => .bytes | .bytes => .bytes | .hex => .bytes

/-- **C111** (conversions): a value that is not one of the type asked for is reported with both: the text of the error
in either form says which type was asked for and which value was there. -/
theorem C111_convert (special : Char → Bool) (env : DebugEnv) (he : Spec.Prints env) (t : ScalarTy) (v : Value)
    (e : ParseError) (h : tryInto t v = .err e) (hb : e ≠ .fromUtf8) :
    Spec.readRefusal (((Error.protocol (.parse e)).dbg env).compact special)
      = some (.wrong (Spec.wanted t) (Spec.seenOf env v)) ∧
    Spec.readRefusal (((Error.protocol (.parse e)).dbg env).pretty special)
      = some (.wrong (Spec.wanted t) (Spec.seenOf env v)) := by
  have he' : e = .wrongValue (Spec.wanted t) v := by
    cases t <;> cases v <;> first
      | (injection h with h; exact h.symm)
      | cases h
      | (unfold tryInto Out.ofOption at h
         dsimp only at h
         split at h
         · cases h
         · injection h with h; exact absurd h.symm hb)
  subst he'
  exact C111_refusal special env he _ _ rfl

/-- dates, points in time and durations: either a value of another type, or one that does not exist, is reported. -/
theorem C111_calendar (special : Char → Bool) (env : DebugEnv) (he : Spec.Prints env) (v : Value) (e : ParseError)
    (h : valueIntoDate v = .err e ∨ valueIntoDatetime v = .err e ∨ valueIntoDuration v = .err e) :
    ∃ r, (r = .bounds (.value v) ∨ ∃ t, t ∈ [ValueType.date, .datetime, .time] ∧ r = .wrong t (Spec.seenOf env v)) ∧
      Spec.readRefusal (((Error.protocol (.parse e)).dbg env).compact special) = some r ∧
      Spec.readRefusal (((Error.protocol (.parse e)).dbg env).pretty special) = some r := by
  have key : (e = .valueOutOfBounds v ∧ Spec.seenOf env v = .value v) ∨
      ∃ t, t ∈ [ValueType.date, .datetime, .time] ∧ e = .wrongValue t v := by
    have ofOpt : ∀ {α : Type} (x : ParseError) (o : Option α), Out.ofOption x o = .err e → x = e := by
      intro α x o h
      cases o with
      | none => injection h
      | some a => cases h
    rcases h with h | h | h
    · unfold valueIntoDate at h
      split at h
      · exact .inl ⟨(ofOpt _ _ h).symm, rfl⟩
      · exact .inl ⟨(ofOpt _ _ h).symm, rfl⟩
      · injection h with h; exact .inr ⟨.date, by simp, h.symm⟩
    · unfold valueIntoDatetime at h
      split at h
      · split at h
        · injection h with h; exact .inl ⟨h.symm, rfl⟩
        · split at h
          · injection h with h; exact .inl ⟨h.symm, rfl⟩
          · cases h
      · injection h with h; exact .inr ⟨.datetime, by simp, h.symm⟩
    · unfold valueIntoDuration at h
      split at h
      · split at h
        · injection h with h; exact .inl ⟨h.symm, rfl⟩
        · exact .inl ⟨(ofOpt _ _ h).symm, rfl⟩
      · injection h with h; exact .inr ⟨.time, by simp, h.symm⟩
  rcases key with ⟨rfl, hv⟩ | ⟨t, ht, rfl⟩
  · have := C111_refusal special env he (.valueOutOfBounds v) _ rfl
    rw [hv] at this
    exact ⟨_, .inl rfl, this⟩
  · exact ⟨_, .inr ⟨t, ht, rfl⟩, C111_refusal special env he (.wrongValue t v) _ rfl⟩

end Verif

import Verif.Props.C111_DebugTree
import Verif.Props.C83_PasswordText

/-!
# C111 — errors of the server, packets nobody expected, and all other errors
-/

namespace Verif

open Spec (Readable ReadableItems plainWord)

/-! ### the form on one line is the one of C82 and C83 -/

theorem commaSep_cons (x : Str) (xs : List Str) :
    commaSep (x :: xs) = x ++ xs.flatMap fun y => ", ".toList ++ y := by
  induction xs generalizing x with
  | nil => simp [commaSep]
  | cons y ys ih =>
    rw [commaSep, ih y]
    simp only [List.flatMap_cons, List.append_assoc]

theorem compact_ofList (special : Char → Bool) (sh : DbgShape) (h : sh ≠ .struct) (ds : List Dbg) :
    (DbgItems.ofList ds).compact special sh false = ds.flatMap fun d => ", ".toList ++ d.compact special := by
  induction ds with
  | nil => rfl
  | cons d ds ih =>
    rw [DbgItems.ofList, DbgItems.compact, ih]
    simp [DbgShape.label, if_neg h]

theorem compact_ofFields (special : Char → Bool) (fs : List (Str × Dbg)) :
    (DbgItems.ofFields fs).compact special .struct false
      = fs.flatMap fun f => ", ".toList ++ (f.1 ++ ": ".toList ++ f.2.compact special) := by
  induction fs with
  | nil => rfl
  | cons f fs ih =>
    rw [DbgItems.ofFields, DbgItems.compact, ih]
    simp [DbgShape.label]

theorem compact_tuple (special : Char → Bool) (name : String) (d : Dbg) (ds : List Dbg) :
    (Dbg.tuple name (d :: ds)).compact special = debugTuple name.toList ((d :: ds).map (Dbg.compact special)) := by
  unfold Dbg.tuple
  rw [Dbg.compact, DbgItems.ofList, DbgItems.compact, compact_ofList _ _ (by decide), List.map_cons, debugTuple, commaSep_cons]
  simp [DbgItems.isNil, DbgShape.opened, DbgShape.closed, DbgShape.label, List.flatMap_map]

theorem compact_struct (special : Char → Bool) (name : String) (f : String × Dbg) (fs : List (String × Dbg)) :
    (Dbg.struct name (f :: fs)).compact special
      = debugStruct name.toList ((f :: fs).map fun f => (f.1.toList, f.2.compact special)) := by
  unfold Dbg.struct
  rw [List.map_cons, Dbg.compact, DbgItems.ofFields, DbgItems.compact, compact_ofFields, List.map_cons, debugStruct,
    List.map_cons, commaSep_cons]
  simp [DbgItems.isNil, DbgShape.opened, DbgShape.closed, DbgShape.label, List.flatMap_map]

theorem compact_bytes (special : Char → Bool) (b : Bytes) : (Dbg.bytes b).compact special = debugBytes b := by
  unfold Dbg.bytes Dbg.list debugBytes
  cases b with
  | nil => rfl
  | cons x b =>
    rw [List.map_cons, Dbg.compact, DbgItems.ofList, DbgItems.compact, compact_ofList _ _ (by decide), List.map_cons,
      commaSep_cons]
    simp [DbgItems.isNil, DbgShape.opened, DbgShape.closed, DbgShape.label, List.flatMap_map, Dbg.nat, Dbg.compact]

theorem compact_opt (special : Char → Bool) (o : Option Dbg) :
    (Dbg.opt o).compact special = debugOpt (o.map (Dbg.compact special)) := by
  cases o with
  | none => rfl
  | some d => exact compact_tuple special "Some" d []

/-- **C111** (one line): on one line, errors and options are printed as in C82 and C83. -/
theorem C111_compact (special : Char → Bool) (env : DebugEnv) (e : Error) (stream timeout : Dbg) (o : Options) :
    (e.dbg env).compact special = e.debug special (fun p => (p.dbg env).compact special) ∧
    (o.dbg stream timeout).compact special = o.debug special (stream.compact special) (timeout.compact special) := by
  constructor
  · cases e with
    | server p =>
      unfold Error.dbg Error.debug
      rw [compact_tuple]
      simp only [List.map_cons, List.map_nil]
      congr 2
      cases p with
      | error code state msg =>
        unfold ErrPacket.dbg ErrPacket.debug
        rw [compact_tuple]
        simp only [List.map_cons, List.map_nil]
        congr 2
        cases stateStr state with
        | none =>
          simp only [List.append_nil, List.cons_append, List.nil_append]
          rw [compact_struct]
          rfl
        | some s =>
          simp only [List.cons_append, List.nil_append]
          rw [compact_struct]
          rfl
      | progress stage last now info =>
        unfold ErrPacket.dbg ErrPacket.debug
        rw [compact_tuple]
        simp only [List.map_cons, List.map_nil]
        rw [compact_struct]
        simp only [List.map_cons, List.map_nil, compact_bytes]
        rfl
    | protocol e =>
      unfold Error.dbg Error.debug
      rw [compact_tuple]
      rfl
    | runtime e =>
      unfold Error.dbg Error.debug
      rw [compact_tuple]
      simp only [List.map_cons, List.map_nil]
      congr 2
      cases e with
      | parameterCountMismatch => rfl
      | insecureAuth => rfl
      | authPluginMismatch p q =>
        unfold RuntimeError.dbg RuntimeError.debug
        rw [compact_tuple]
        simp only [List.map_cons, List.map_nil]
        rw [compact_struct]
        rfl
  · unfold Options.dbg Options.debug
    rw [compact_struct]
    simp only [List.map_cons, List.map_nil, compact_opt, Option.map_map]
    have h1 : (Dbg.compact special ∘ Dbg.text) = debugStr special := by funext s; rfl
    have h2 : (Dbg.compact special ∘ Dbg.nat) = decStr := by funext s; rfl
    have h3 : (Dbg.compact special ∘ AuthPlugin.dbg) = AuthPlugin.debug := by funext s; rfl
    have h4 : (Dbg.compact special ∘ PublicKey.dbg) = PublicKey.debug := by
      funext k
      show (Dbg.struct "PublicKey" _).compact special = _
      rw [compact_struct]
      rfl
    have h5 : (Dbg.bool o.allowCleartext).compact special = debugBool o.allowCleartext := by
      cases o.allowCleartext <;> rfl
    rw [h1, h2, h3, h4, h5]
    rfl

/-! ### every error -/

/-- what other code prints can be read. -/
structure Spec.PrintsAll (env : DebugEnv) : Prop extends Spec.Prints env where
  io : ∀ k, Readable (env.io k)
  utf8 : Readable env.utf8
  fromUtf8 : Readable env.fromUtf8
  refused : ∀ t, Readable (env.refused t)

theorem text_readable (s : Str) : Readable (.text s) := by
  rw [Readable]
  trivial

theorem plugin_readable (p : AuthPlugin) : Readable p.dbg := by
  unfold AuthPlugin.dbg
  rw [Readable]
  cases p <;> decide

theorem packet_readable (p : ErrPacket) : Readable p.dbg := by
  cases p with
  | error code state msg =>
    refine tuple_readable _ _ (by decide) (by simp) ?_
    simp only [List.mem_singleton, forall_eq]
    refine struct_readable _ _ (by decide) (by simp) ?_
    cases stateStr state with
    | none =>
      simp only [List.append_nil, List.cons_append, List.nil_append, List.mem_cons, List.not_mem_nil, or_false,
        forall_eq_or_imp, forall_eq]
      exact ⟨⟨by decide, nat_readable _⟩, by decide, text_readable _⟩
    | some s =>
      simp only [List.cons_append, List.nil_append, List.mem_cons, List.not_mem_nil, or_false, forall_eq_or_imp, forall_eq]
      exact ⟨⟨by decide, nat_readable _⟩, ⟨by decide, text_readable _⟩, by decide, text_readable _⟩
  | progress stage last now info =>
    refine tuple_readable _ _ (by decide) (by simp) ?_
    simp only [List.mem_singleton, forall_eq]
    refine struct_readable _ _ (by decide) (by simp) ?_
    simp only [List.mem_cons, List.not_mem_nil, or_false, forall_eq_or_imp, forall_eq]
    exact ⟨⟨by decide, nat_readable _⟩, ⟨by decide, nat_readable _⟩, ⟨by decide, nat_readable _⟩, by decide,
      bytes_readable _⟩

theorem protocol_readable (env : DebugEnv) (he : Spec.PrintsAll env) (e : ProtocolError) : Readable (e.dbg env) := by
  cases e with
  | outOfSync => exact name_readable _ (by decide)
  | parse e =>
    refine tuple_readable _ _ (by decide) (by simp) ?_
    simp only [List.mem_singleton, forall_eq]
    exact parse_readable env he.toPrints he.utf8 he.fromUtf8 e
  | serialize e =>
    refine tuple_readable _ _ (by decide) (by simp) ?_
    simp only [List.mem_singleton, forall_eq]
    cases e with
    | infallible => exact name_readable _ (by decide)
    | invalidValue t =>
      refine tuple_readable _ _ (by decide) (by simp) ?_
      simp only [List.mem_cons, List.not_mem_nil, or_false, forall_eq_or_imp, forall_eq]
      exact ⟨name_readable _ (typeOf_name t).2, he.refused t⟩
    | encryption x =>
      cases x <;>
        (refine tuple_readable _ _ (by decide) (by simp) ?_
         simp only [List.mem_singleton, forall_eq]
         exact name_readable _ (by decide))
  | io k =>
    refine tuple_readable _ _ (by decide) (by simp) ?_
    simp only [List.mem_singleton, forall_eq]
    exact he.io k
  | unexpectedPacket got =>
    refine tuple_readable _ _ (by decide) (by simp) ?_
    simp only [List.mem_singleton, forall_eq]
    cases env.expected got with
    | none =>
      refine tuple_readable _ _ (by decide) (by simp) ?_
      simp only [List.mem_singleton, forall_eq]
      exact bytes_readable _
    | some x =>
      refine struct_readable _ _ (by decide) (by simp) ?_
      simp only [List.mem_cons, List.not_mem_nil, or_false, forall_eq_or_imp, forall_eq]
      exact ⟨⟨by decide, text_readable _⟩, by decide, bytes_readable _⟩
  | invalidPacket got =>
    refine tuple_readable _ _ (by decide) (by simp) ?_
    simp only [List.mem_singleton, forall_eq]
    refine struct_readable _ _ (by decide) (by simp) ?_
    simp only [List.mem_cons, List.not_mem_nil, or_false, forall_eq_or_imp, forall_eq]
    exact ⟨⟨by decide, bytes_readable _⟩, ⟨by decide, text_readable _⟩, by decide, text_readable _⟩
  | unknownAuthPlugin n =>
    refine tuple_readable _ _ (by decide) (by simp) ?_
    simp only [List.mem_singleton, forall_eq]
    exact text_readable _

theorem error_readable (env : DebugEnv) (he : Spec.PrintsAll env) (e : Error) : Readable (e.dbg env) := by
  cases e with
  | server p =>
    refine tuple_readable _ _ (by decide) (by simp) ?_
    simp only [List.mem_singleton, forall_eq]
    exact packet_readable p
  | protocol e =>
    refine tuple_readable _ _ (by decide) (by simp) ?_
    simp only [List.mem_singleton, forall_eq]
    exact protocol_readable env he e
  | runtime e =>
    refine tuple_readable _ _ (by decide) (by simp) ?_
    simp only [List.mem_singleton, forall_eq]
    cases e with
    | parameterCountMismatch => exact name_readable _ (by decide)
    | insecureAuth => exact name_readable _ (by decide)
    | authPluginMismatch p q =>
      refine tuple_readable _ _ (by decide) (by simp) ?_
      simp only [List.mem_singleton, forall_eq]
      refine struct_readable _ _ (by decide) (by simp) ?_
      simp only [List.mem_cons, List.not_mem_nil, or_false, forall_eq_or_imp, forall_eq]
      exact ⟨⟨by decide, plugin_readable _⟩, by decide, plugin_readable _⟩

/-- **C111** (errors): every error is read, in either form, as what was printed. -/
theorem C111_error (special : Char → Bool) (env : DebugEnv) (he : Spec.PrintsAll env) (e : Error) :
    Spec.readTree ((e.dbg env).compact special) = some (e.dbg env) ∧
    Spec.readTree ((e.dbg env).pretty special) = some (e.dbg env) :=
  C111_tree special _ (error_readable env he e)

/-! ### errors of the server -/

/-- **C111** (server): the text of an error of the server in either form has exactly one reading: its code, its state if
it has one, and its message. -/
theorem C111_server (special : Char → Bool) (env : DebugEnv) (code : UInt16) (state : Option Bytes) (msg : Str) :
    Spec.readServerError (((Error.server (.error code state msg)).dbg env).compact special)
      = some (code.toNat, stateStr state, msg) ∧
    Spec.readServerError (((Error.server (.error code state msg)).dbg env).pretty special)
      = some (code.toNat, stateStr state, msg) := by
  have hr : Readable ((Error.server (.error code state msg)).dbg env) := by
    refine tuple_readable _ _ (by decide) (by simp) ?_
    simp only [List.mem_singleton, forall_eq]
    exact packet_readable _
  have key : ∀ s, Spec.readTree s = some ((Error.server (.error code state msg)).dbg env) →
      Spec.readServerError s = some (code.toNat, stateStr state, msg) := by
    intro s hs
    unfold Spec.readServerError
    rw [hs]
    unfold Error.dbg ErrPacket.dbg
    dsimp only [Option.bind_some]
    rw [inside_tuple]
    dsimp only [Option.bind_some]
    rw [inside_tuple]
    dsimp only [Option.bind_some]
    rw [fieldsOf_struct]
    dsimp only [Option.bind_some]
    rw [fieldNamed_fields, fieldNamed_fields, fieldNamed_fields]
    cases stateStr state with
    | none =>
      simp only [List.append_nil, List.cons_append, List.nil_append, field_here, field_next, fieldAt, Option.bind_some,
        Option.bind_none, Option.map_some, String.reduceEq, ne_eq, not_false_eq_true, natOf_nat, Spec.textOf, if_false, if_true]
    | some s =>
      simp only [List.cons_append, List.nil_append, field_here, field_next, Option.bind_some, Option.map_some,
        String.reduceEq, ne_eq, not_false_eq_true, natOf_nat, Spec.textOf]
  obtain ⟨h1, h2⟩ := C111_tree special _ hr
  exact ⟨key _ h1, key _ h2⟩

/-- If the server answers a statement with an error, in any state of the connection, the text of the error returned, on
one line or on several, has exactly one reading: the code, the state and the message in the packet. -/
theorem C111_reported (special : Char → Bool) (env : DebugEnv) (sql : Str) (c c0 c1 c' : Conn)
    (p : Bytes) (code : UInt16) (state : Str) (msg : Str) (hi : Spec.Idle c c0)
    (hw : Spec.Wrote c0 (0x03 :: utf8 sql) c1) (ht : Spec.Took c1 [p] c')
    (hp : Spec.ErrForm c.data.capabilities p code (some (utf8 state)) msg) :
    ∃ e, executeQuery sql c = (.err e, c') ∧
      Spec.readServerError ((e.dbg env).compact special) = some (code.toNat, some state, msg) ∧
      Spec.readServerError ((e.dbg env).pretty special) = some (code.toNat, some state, msg) := by
  refine ⟨_, (C77_execute_error sql c c' code (some (utf8 state)) msg).2 ⟨c0, c1, p, hi, hw, ht, hp⟩, ?_⟩
  have := C111_server special env code (some (utf8 state)) msg
  simpa [stateStr, fromUtf8_utf8] using this

/-! ### packets nobody expected -/

/-- **C111** (packets): the text of an error about a packet that was not expected contains the bytes of the packet, with or
without the kind of packet that was expected. -/
theorem C111_unexpected (special : Char → Bool) (env : DebugEnv) (got : Bytes) :
    Spec.readUnexpected (((Error.protocol (.unexpectedPacket got)).dbg env).compact special) = some got ∧
    Spec.readUnexpected (((Error.protocol (.unexpectedPacket got)).dbg env).pretty special) = some got := by
  have hr : Readable ((Error.protocol (.unexpectedPacket got)).dbg env) := by
    refine tuple_readable _ _ (by decide) (by simp) ?_
    simp only [List.mem_singleton, forall_eq]
    refine tuple_readable _ _ (by decide) (by simp) ?_
    simp only [List.mem_singleton, forall_eq]
    cases env.expected got with
    | none =>
      refine tuple_readable _ _ (by decide) (by simp) ?_
      simp only [List.mem_singleton, forall_eq]
      exact bytes_readable _
    | some x =>
      refine struct_readable _ _ (by decide) (by simp) ?_
      simp only [List.mem_cons, List.not_mem_nil, or_false, forall_eq_or_imp, forall_eq]
      exact ⟨⟨by decide, text_readable _⟩, by decide, bytes_readable _⟩
  have key : ∀ s, Spec.readTree s = some ((Error.protocol (.unexpectedPacket got)).dbg env) →
      Spec.readUnexpected s = some got := by
    intro s hs
    unfold Spec.readUnexpected
    rw [hs]
    unfold Error.dbg ProtocolError.dbg
    dsimp only [Option.bind_some]
    rw [inside_tuple]
    dsimp only [Option.bind_some]
    rw [inside_tuple]
    dsimp only [Option.bind_some]
    cases env.expected got with
    | none =>
      dsimp only
      rw [inside_tuple]
      exact bytesOf_bytes got
    | some x =>
      dsimp only
      rw [fieldsOf_struct]
      dsimp only
      rw [fieldNamed_fields]
      simp only [field_here, field_next, Option.bind_some, String.reduceEq, ne_eq, not_false_eq_true, bytesOf_bytes]
  obtain ⟨h1, h2⟩ := C111_tree special _ hr
  exact ⟨key _ h1, key _ h2⟩

/-! ### the password -/

theorem opt_readable (o : Option Dbg) (h : ∀ d, o = some d → Readable d) : Readable (.opt o) := by
  cases o with
  | none => exact name_readable _ (by decide)
  | some d =>
    refine tuple_readable _ _ (by decide) (by simp) ?_
    simp only [List.mem_singleton, forall_eq]
    exact h d rfl

/-- Property as it should be: what is printed does not depend on the password.  Refuted for options printed on several
lines, too: the password can be read from the text. -/
theorem C83_pretty_violated (special : Char → Bool) (stream timeout : Dbg) (o : Options) (hs : Readable stream)
    (ht : Readable timeout) :
    Spec.readPassword ((o.dbg stream timeout).compact special) = some o.password ∧
    Spec.readPassword ((o.dbg stream timeout).pretty special) = some o.password := by
  have hr : Readable (o.dbg stream timeout) := by
    refine struct_readable _ _ (by decide) (by simp) ?_
    simp only [List.mem_cons, List.not_mem_nil, or_false, forall_eq_or_imp, forall_eq]
    refine ⟨⟨by decide, text_readable _⟩, ⟨by decide, text_readable _⟩, ⟨by decide, opt_readable _ ?_⟩, ⟨by decide, hs⟩,
      ⟨by decide, opt_readable _ ?_⟩, ⟨by decide, ht⟩, ⟨by decide, bool_readable _⟩, ⟨by decide, opt_readable _ ?_⟩,
      by decide, opt_readable _ ?_⟩
    · intro d h
      obtain ⟨x, _, rfl⟩ := Option.map_eq_some_iff.1 h
      exact text_readable _
    · intro d h
      obtain ⟨x, _, rfl⟩ := Option.map_eq_some_iff.1 h
      exact nat_readable _
    · intro d h
      obtain ⟨x, _, rfl⟩ := Option.map_eq_some_iff.1 h
      exact plugin_readable _
    · intro d h
      obtain ⟨x, _, rfl⟩ := Option.map_eq_some_iff.1 h
      refine struct_readable _ _ (by decide) (by simp) ?_
      simp only [List.mem_cons, List.not_mem_nil, or_false, forall_eq_or_imp, forall_eq]
      exact ⟨⟨by decide, nat_readable _⟩, by decide, nat_readable _⟩
  have key : ∀ s, Spec.readTree s = some (o.dbg stream timeout) → Spec.readPassword s = some o.password := by
    intro s hs
    unfold Spec.readPassword
    rw [hs]
    unfold Options.dbg
    dsimp only [Option.bind_some]
    rw [fieldsOf_struct]
    dsimp only [Option.bind_some]
    rw [fieldNamed_fields]
    simp only [field_here, field_next, Option.bind_some, String.reduceEq, ne_eq, not_false_eq_true, Spec.textOf]
  obtain ⟨h1, h2⟩ := C111_tree special _ hr
  exact ⟨key _ h1, key _ h2⟩

/-! ### concrete cases -/

namespace C111ex

/-- digits of some numbers, an error of the operating system. -/
def env : DebugEnv where
  f32 := fun _ => "1.5".toList
  f64 := fun _ => "-0.25".toList
  io := fun _ => .struct "Os" [("code", .nat 104), ("kind", .name "ConnectionReset"),
    ("message", .text "Connection reset by peer".toList)]
  utf8 := .struct "Utf8Error" [("valid_up_to", .nat 1), ("error_len", .opt (some (.nat 1)))]
  fromUtf8 := .struct "FromUtf8Error" [("bytes", .bytes [255]),
    ("error", .struct "Utf8Error" [("valid_up_to", .nat 0), ("error_len", .opt (some (.nat 1)))])]
  refused := fun _ => .name "+10000-01-01"
  lossy := fun _ => "mysql_\"old\"_password".toList
  expected := fun b => if b.length = 1 then none else some "Err Packet".toList
  invalid := fun _ => ("Err".toList, "missing state".toList)

def special (c : Char) : Bool := c.toNat < 32 || c.toNat = 127

theorem prints : Spec.PrintsAll env where
  f32 := fun _ => by show plainWord "1.5".toList; decide
  f64 := fun _ => by show plainWord "-0.25".toList; decide
  io := fun _ => by
    refine struct_readable _ _ (by decide) (by simp) ?_
    simp only [List.mem_cons, List.not_mem_nil, or_false, forall_eq_or_imp, forall_eq]
    exact ⟨⟨by decide, nat_readable _⟩, ⟨by decide, name_readable _ (by decide)⟩, by decide, text_readable _⟩
  utf8 := by
    refine struct_readable _ _ (by decide) (by simp) ?_
    simp only [List.mem_cons, List.not_mem_nil, or_false, forall_eq_or_imp, forall_eq]
    exact ⟨⟨by decide, nat_readable _⟩, by decide, opt_readable _ fun d h => by cases h; exact nat_readable _⟩
  fromUtf8 := by
    refine struct_readable _ _ (by decide) (by simp) ?_
    simp only [List.mem_cons, List.not_mem_nil, or_false, forall_eq_or_imp, forall_eq]
    refine ⟨⟨by decide, bytes_readable _⟩, by decide, ?_⟩
    refine struct_readable _ _ (by decide) (by simp) ?_
    simp only [List.mem_cons, List.not_mem_nil, or_false, forall_eq_or_imp, forall_eq]
    exact ⟨⟨by decide, nat_readable _⟩, by decide, opt_readable _ fun d h => by cases h; exact nat_readable _⟩
  refused := fun _ => name_readable _ (by decide)

end C111ex

/-- a value that is not a number, on several lines. -/
theorem C111_wrong_example :
    (((Error.protocol (.parse (.wrongValue .number (.bytes [1, 255])))).dbg C111ex.env).pretty C111ex.special =
      ("Protocol(\n    Parse(\n        WrongValue(\n            WrongValue {\n                expected: Number,\n" ++
        "                got: Bytes(\n                    [\n                        1,\n" ++
        "                        255,\n                    ],\n                ),\n            },\n        ),\n    ),\n)").toList) ∧
    ((Error.protocol (.parse (.wrongValue .number (.time true 3 4 5 6 7)))).dbg C111ex.env).compact C111ex.special =
      ("Protocol(Parse(WrongValue(WrongValue { expected: Number, got: Time(true, 3, 4, 5, 6, 7) })))").toList ∧
    ((Error.protocol (.parse (.valueOutOfBounds (.bytes [])))).dbg C111ex.env).pretty C111ex.special =
      ("Protocol(\n    Parse(\n        ValueOutOfBounds(\n            Bytes(\n                [],\n            ),\n" ++
        "        ),\n    ),\n)").toList := by
  refine ⟨?_, ?_, ?_⟩ <;> decide +kernel

/-- a message that tries to look like the end of the error and another line. -/
theorem C111_server_example :
    let e : Error := .server (.error 1146 (some (utf8 "42S02".toList)) "no \"x\"\",\n    },\n  ),\nINFO: ok".toList)
    (e.dbg C111ex.env).pretty C111ex.special =
      ("Server(\n    Error(\n        ErrorPacket {\n            code: 1146,\n            state: \"42S02\",\n" ++
        "            message: \"no \\\"x\\\"\\\",\\n    },\\n  ),\\nINFO: ok\",\n        },\n    ),\n)").toList ∧
    Spec.readServerError ((e.dbg C111ex.env).pretty C111ex.special)
      = some (1146, some "42S02".toList, "no \"x\"\",\n    },\n  ),\nINFO: ok".toList) := by
  refine ⟨?_, ?_⟩ <;> decide +kernel

end Verif

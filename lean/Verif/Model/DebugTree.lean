import Verif.Model.Debug

/-!
# `{:?}` and `{:#?}`: what an error or a value asks the formatter for, and what the formatter prints

A derived or written `Debug` implementation is a tree of calls to the builders of the standard library (`debug_struct`,
`debug_tuple`, `debug_list`); the tree does not depend on the form.  `compact` is `{:?}`, `pretty` is `{:#?}`, where
`PadAdapter` puts four blanks in front of every line of what is inside.  Numbers, booleans and variants without fields are
words, the same in both forms.

Texts of values of other crates are parameters (`DebugEnv`): I/O errors, errors about UTF-8, floating point numbers, the
dates and times of other crates in `SerializeError::InvalidValue`.  The model of errors has no room for the constant texts
that `UnexpectedPacket` and `InvalidPacket` carry beside the bytes; these are parameters as well.
-/

namespace Verif

/-- the builders. -/
inductive DbgShape where
  | tuple | struct | list
  deriving DecidableEq, Repr

mutual
/-- what is printed: a word, a string, or a group of things. -/
inductive Dbg where
  | word (s : Str)
  | text (s : Str)
  | group (shape : DbgShape) (name : Str) (items : DbgItems)

/-- the things in a group; only fields of structs have a label. -/
inductive DbgItems where
  | nil
  | cons (label : Str) (d : Dbg) (rest : DbgItems)
end

namespace DbgItems

def isNil : DbgItems → Bool
  | nil => true
  | cons _ _ _ => false

/-- the entries of a tuple or a list. -/
def ofList : List Dbg → DbgItems
  | [] => nil
  | d :: ds => cons [] d (ofList ds)

/-- the fields of a struct. -/
def ofFields : List (Str × Dbg) → DbgItems
  | [] => nil
  | f :: fs => cons f.1 f.2 (ofFields fs)

end DbgItems

/-- `debug_tuple`. -/
def Dbg.tuple (name : String) (args : List Dbg) : Dbg := .group .tuple name.toList (.ofList args)
/-- `debug_struct`. -/
def Dbg.struct (name : String) (fields : List (String × Dbg)) : Dbg :=
  .group .struct name.toList (.ofFields (fields.map fun f => (f.1.toList, f.2)))
/-- `debug_list`. -/
def Dbg.list (items : List Dbg) : Dbg := .group .list [] (.ofList items)
def Dbg.name (s : String) : Dbg := .word s.toList
def Dbg.nat (n : Nat) : Dbg := .word (decStr n)
def Dbg.int (i : Int) : Dbg := .word (intStr i)

/-! ### the two forms (library/core/src/fmt/builders.rs of the standard library) -/

/-- the name of a field. -/
def DbgShape.label (sh : DbgShape) (l : Str) : Str := if sh = .struct then l ++ ": ".toList else []

def DbgShape.opened : DbgShape → Str
  | .tuple => ['('] | .struct => " { ".toList | .list => ['[']
def DbgShape.closed : DbgShape → Str
  | .tuple => [')'] | .struct => " }".toList | .list => [']']
/-- in the form with several lines. -/
def DbgShape.openedP : DbgShape → Str
  | .tuple => ['(', '\n'] | .struct => " {\n".toList | .list => ['[', '\n']
def DbgShape.closedP : DbgShape → Str
  | .tuple => [')'] | .struct => ['}'] | .list => [']']
/-- without entries. -/
def DbgShape.none : DbgShape → Str
  | .tuple => [] | .struct => [] | .list => ['[', ']']

mutual
/-- `{:?}`. -/
def Dbg.compact (special : Char → Bool) : Dbg → Str
  | .word s => s
  | .text s => debugStr special s
  | .group sh name items =>
    name ++ (if items.isNil then sh.none else sh.opened ++ items.compact special sh true ++ sh.closed)

def DbgItems.compact (special : Char → Bool) (sh : DbgShape) : Bool → DbgItems → Str
  | _, .nil => []
  | first, .cons l d r => (if first then [] else ", ".toList) ++ sh.label l ++ d.compact special ++ r.compact special sh false
end

/-- `PadAdapter`: four blanks at the beginning of every line; `fresh`: at the beginning of a line. -/
def padLines : Bool → Str → Str
  | _, [] => []
  | fresh, c :: r => (if fresh then "    ".toList else []) ++ c :: padLines (c == '\n') r

mutual
/-- `{:#?}`. -/
def Dbg.pretty (special : Char → Bool) : Dbg → Str
  | .word s => s
  | .text s => debugStr special s
  | .group sh name items =>
    name ++ (if items.isNil then sh.none else sh.openedP ++ items.pretty special sh ++ sh.closedP)

def DbgItems.pretty (special : Char → Bool) (sh : DbgShape) : DbgItems → Str
  | .nil => []
  | .cons l d r => padLines true (sh.label l ++ d.pretty special ++ [',', '\n']) ++ r.pretty special sh
end

/-! ### values and errors -/

/-- what is printed by code that is not modelled. -/
structure DebugEnv where
  f32 : UInt32 → Str
  f64 : UInt64 → Str
  io : IoKind → Dbg
  utf8 : Dbg
  fromUtf8 : Dbg
  /-- the value that cannot be stored. -/
  refused : ValueType → Dbg
  /-- `String::from_utf8_lossy`. -/
  lossy : Bytes → Str
  /-- the constant in `UnexpectedPacket`. -/
  expected : Bytes → Option Str
  /-- the constants in `InvalidPacket`. -/
  invalid : Bytes → Str × Str

/-- `Debug` of `Vec<u8>`. -/
def Dbg.bytes (b : Bytes) : Dbg := .list (b.map fun x => .nat x.toNat)

def Dbg.bool (b : Bool) : Dbg := .name (if b then "true" else "false")

/-- `Debug` of `Option`. -/
def Dbg.opt : Option Dbg → Dbg
  | none => .name "None"
  | some d => .tuple "Some" [d]

/-- types/value/mod.rs 16-36. -/
def Value.dbg (env : DebugEnv) : Value → Dbg
  | .null => .name "Null"
  | .tiny x => .tuple "Tiny" [.int x.toInt]
  | .short x => .tuple "Short" [.int x.toInt]
  | .int x => .tuple "Int" [.int x.toInt]
  | .long x => .tuple "Long" [.int x.toInt]
  | .utiny x => .tuple "UTiny" [.nat x.toNat]
  | .ushort x => .tuple "UShort" [.nat x.toNat]
  | .uint x => .tuple "UInt" [.nat x.toNat]
  | .ulong x => .tuple "ULong" [.nat x.toNat]
  | .float x => .tuple "Float" [.word (env.f32 x)]
  | .double x => .tuple "Double" [.word (env.f64 x)]
  | .bytes b => .tuple "Bytes" [.bytes b]
  | .date y m d => .tuple "Date" [.nat y.toNat, .nat m.toNat, .nat d.toNat]
  | .time neg d h m s us =>
    .tuple "Time" [.bool neg, .nat d.toNat, .nat h.toNat, .nat m.toNat, .nat s.toNat, .nat us.toNat]
  | .datetime y mo d h m s us =>
    .tuple "Datetime" [.nat y.toNat, .nat mo.toNat, .nat d.toNat, .nat h.toNat, .nat m.toNat, .nat s.toNat, .nat us.toNat]

/-- types/value/mod.rs 38-55. -/
def ValueType.debugName : ValueType → String
  | .number => "Number" | .tiny => "Tiny" | .short => "Short" | .int => "Int" | .long => "Long"
  | .utiny => "UTiny" | .ushort => "UShort" | .uint => "UInt" | .ulong => "ULong"
  | .float => "Float" | .double => "Double" | .bytes => "Bytes" | .date => "Date" | .time => "Time"
  | .datetime => "Datetime"

/-- error/parse.rs 18-27. -/
def InvalidFlags.dbg : InvalidFlags → Dbg
  | .status v => .tuple "Status" [.nat v.toNat]
  | .capability v => .tuple "Capability" [.nat v.toNat]
  | .column v => .tuple "Column" [.nat v.toNat]
  | .columnType v => .tuple "ColumnType" [.nat v.toNat]

/-- error/parse.rs 7-16, 29-39. -/
def ParseError.dbg (env : DebugEnv) : ParseError → Dbg
  | .missingField f => .tuple "MissingField" [.text f]
  | .rowLengthMismatch => .name "RowLengthMismatch"
  | .wrongValue t v =>
    .tuple "WrongValue" [.struct "WrongValue" [("expected", .name t.debugName), ("got", v.dbg env)]]
  | .invalidValue t b => .tuple "InvalidValue" [.name t.debugName, .bytes b]
  | .valueOutOfBounds v => .tuple "ValueOutOfBounds" [v.dbg env]
  | .unknownBitflags f => .tuple "UnknownBitflags" [f.dbg]
  | .utf8 => .tuple "Utf8" [env.utf8]
  | .fromUtf8 => .tuple "FromUtf8" [env.fromUtf8]

/-- error/protocol.rs 7-14, utils/crypt.rs 7-11. -/
def SerializeError.dbg (env : DebugEnv) : SerializeError → Dbg
  | .infallible => .name "Infallible"
  | .invalidValue t => .tuple "InvalidValue" [.name t.debugName, env.refused t]
  | .encryption .invalidPem => .tuple "Encryption" [.name "InvalidPem"]
  | .encryption .messageTooLong => .tuple "Encryption" [.name "MessageTooLong"]

/-- error/protocol.rs 30-61. -/
def ProtocolError.dbg (env : DebugEnv) : ProtocolError → Dbg
  | .parse e => .tuple "Parse" [e.dbg env]
  | .serialize e => .tuple "Serialize" [e.dbg env]
  | .io k => .tuple "Io" [env.io k]
  | .outOfSync => .name "OutOfSync"
  | .unexpectedPacket got =>
    .tuple "UnexpectedPacket" [match env.expected got with
      | some e => .struct "UnexpectedPacket" [("expected", .text e), ("got", .bytes got)]
      | none => .tuple "UnexpectedPacket" [.bytes got]]
  | .invalidPacket got =>
    .tuple "InvalidPacket" [.struct "InvalidPacket"
      [("packet", .bytes got), ("type", .text (env.invalid got).1), ("error", .text (env.invalid got).2)]]
  | .unknownAuthPlugin n => .tuple "UnknownAuthPlugin" [.text (env.lossy n)]

/-- packets/err.rs 10-14, 66-76, 108-114. -/
def ErrPacket.dbg : ErrPacket → Dbg
  | .error code state message =>
    .tuple "Error" [.struct "ErrorPacket"
      ([("code", .nat code.toNat)] ++
       (match stateStr state with
        | some s => [("state", .text s)]
        | none => []) ++
       [("message", .text message)])]
  | .progress stage maxStage now info =>
    .tuple "Progress" [.struct "ProgressPacket"
      [("stage", .nat stage.toNat), ("max_stage", .nat maxStage.toNat), ("progress", .nat now.toNat),
       ("stage_info", .bytes info)]]

/-- types/auth_plugin.rs 15-27. -/
def AuthPlugin.dbg (p : AuthPlugin) : Dbg := .word p.debug

/-- error/mod.rs 14-25. -/
def RuntimeError.dbg : RuntimeError → Dbg
  | .parameterCountMismatch => .name "ParameterCountMismatch"
  | .insecureAuth => .name "InsecureAuth"
  | .authPluginMismatch current requested =>
    .tuple "AuthPluginMismatch" [.struct "AuthPluginMismatch" [("current", current.dbg), ("requested", requested.dbg)]]

/-- error/mod.rs 33-38. -/
def Error.dbg (env : DebugEnv) : Error → Dbg
  | .server p => .tuple "Server" [p.dbg]
  | .protocol e => .tuple "Protocol" [e.dbg env]
  | .runtime e => .tuple "Runtime" [e.dbg]

/-- utils/crypt.rs 118-122. -/
def PublicKey.dbg (k : PublicKey) : Dbg := .struct "PublicKey" [("modulus", .nat k.modulus), ("exponent", .nat k.exponent)]

/-- connection/options.rs 119-135. -/
def Options.dbg (stream timeout : Dbg) (o : Options) : Dbg :=
  .struct "ConnectionOptions"
    [("user", .text o.user), ("password", .text o.password), ("db_name", .opt (o.dbName.map .text)),
     ("connection", stream), ("max_allowed_packet", .opt (o.maxAllowedPacket.map .nat)), ("timeout", timeout),
     ("allow_cleartext_password", .bool o.allowCleartext), ("auth_plugin", .opt (o.authPlugin.map AuthPlugin.dbg)),
     ("server_key", .opt (o.serverKey.map PublicKey.dbg))]

end Verif

import Verif.Basic

/-!
# Values, column types, flags and errors

Mirrors `src/types/value/mod.rs`, `src/connection/types/column_type.rs`,
`src/connection/bitflags.rs`, `src/connection/command.rs` and `src/error/*.rs`.
-/

namespace Verif

/-- src/types/value/mod.rs 17-36 `enum Value`.
`Float`/`Double` carry the IEEE bit pattern. -/
inductive Value where
  | null
  | tiny (x : Int8)
  | short (x : Int16)
  | int (x : Int32)
  | long (x : Int64)
  | utiny (x : UInt8)
  | ushort (x : UInt16)
  | uint (x : UInt32)
  | ulong (x : UInt64)
  | float (bits : UInt32)
  | double (bits : UInt64)
  | bytes (x : Bytes)
  | date (year : UInt16) (month day : UInt8)
  | time (neg : Bool) (days : UInt32) (hours minutes seconds : UInt8) (micros : UInt32)
  | datetime (year : UInt16) (month day hour minute second : UInt8) (micros : UInt32)
  deriving DecidableEq, Repr

/-- src/types/value/mod.rs 39-55 `enum ValueType`. -/
inductive ValueType where
  | number | tiny | short | int | long | utiny | ushort | uint | ulong
  | float | double | bytes | date | time | datetime
  deriving DecidableEq, Repr

/-- src/connection/types/column_type.rs 22-56 `enum ColumnType`. -/
inductive ColumnType where
  | decimal | tiny | short | long | float | double | null | timestamp | longLong | int24
  | date | time | datetime | year | newDate | varchar | bit | timestamp2 | datetime2 | time2
  | typedArray | unknown | json | newDecimal | enum | set | tinyBlob | mediumBlob | longBlob
  | blob | varString | string | geometry
  deriving DecidableEq, Repr

/-- discriminants, src/connection/types/column_type.rs 22-56 (`column_type as u8`). -/
def ColumnType.toByte : ColumnType → UInt8
  | decimal => 0 | tiny => 1 | short => 2 | long => 3 | float => 4 | double => 5 | null => 6
  | timestamp => 7 | longLong => 8 | int24 => 9 | date => 10 | time => 11 | datetime => 12
  | year => 13 | newDate => 14 | varchar => 15 | bit => 16 | timestamp2 => 17
  | datetime2 => 18 | time2 => 19 | typedArray => 20 | unknown => 243 | json => 245
  | newDecimal => 246 | enum => 247 | set => 248 | tinyBlob => 249 | mediumBlob => 250
  | longBlob => 251 | blob => 252 | varString => 253 | string => 254 | geometry => 255

/-! ### Errors -/

/-- src/error/parse.rs 19-27 (only the variants that can be produced). -/
inductive InvalidFlags where
  | status (v : UInt16)
  | capability (v : UInt32)
  | column (v : UInt16)
  | columnType (v : UInt8)
  deriving DecidableEq, Repr

/-- src/error/parse.rs 30-39 `enum ParseError` (the payload of UTF-8 errors is dropped). -/
inductive ParseError where
  | missingField (name : Str)
  | rowLengthMismatch
  | wrongValue (expected : ValueType) (got : Value)
  | invalidValue (t : ValueType) (b : Bytes)
  | valueOutOfBounds (v : Value)
  | unknownBitflags (f : InvalidFlags)
  | utf8
  | fromUtf8
  deriving DecidableEq, Repr

/-- kinds of `std::io::Error` that occur (src/error/protocol.rs 64-66, src/connection/timeout.rs 37,
src/types/value/text.rs 346). `closed` is any other failure reported by the stream. -/
inductive IoKind where
  | unexpectedEof | timedOut | invalidData | closed
  deriving DecidableEq, Repr

/-- src/utils/crypt.rs 8-11. -/
inductive CryptError where
  | invalidPem | messageTooLong
  deriving DecidableEq, Repr

/-- src/error/protocol.rs 8-14. -/
inductive SerializeError where
  | infallible
  | invalidValue (t : ValueType)
  | encryption (e : CryptError)
  deriving DecidableEq, Repr

/-- src/error/protocol.rs 53-61. -/
inductive ProtocolError where
  | parse (e : ParseError)
  | serialize (e : SerializeError)
  | io (k : IoKind)
  | outOfSync
  | unexpectedPacket (got : Bytes)
  | invalidPacket (got : Bytes)
  | unknownAuthPlugin (name : Bytes)
  deriving DecidableEq, Repr

/-- src/error/protocol.rs 64-66 `ProtocolError::eof()`. -/
def ProtocolError.eof : ProtocolError := .io .unexpectedEof

/-- src/connection/packets/err.rs 11-14, 39-43, 109-114. -/
inductive ErrPacket where
  | error (code : UInt16) (state : Option Bytes) (message : Str)
  | progress (stage maxStage : UInt8) (progress : UInt32) (info : Bytes)
  deriving DecidableEq, Repr

/-- src/connection/types/auth_plugin.rs 16-27 (feature `caching-sha2-password` is on by default). -/
inductive AuthPlugin where
  | clear | native | sha2
  deriving DecidableEq, Repr

/-- src/error/mod.rs 21-25. -/
inductive RuntimeError where
  | parameterCountMismatch
  | insecureAuth
  | authPluginMismatch (current requested : AuthPlugin)
  deriving DecidableEq, Repr

/-- src/error/mod.rs 34-38. -/
inductive Error where
  | server (p : ErrPacket)
  | protocol (e : ProtocolError)
  | runtime (e : RuntimeError)
  deriving DecidableEq, Repr

/-- src/connection/types/column_type.rs 12-17 `TryFrom<u8>`. -/
def ColumnType.ofByte (b : UInt8) : Out InvalidFlags ColumnType :=
  if b = 0 then .ok decimal else if b = 1 then .ok tiny else if b = 2 then .ok short
  else if b = 3 then .ok long else if b = 4 then .ok float else if b = 5 then .ok double
  else if b = 6 then .ok null else if b = 7 then .ok timestamp else if b = 8 then .ok longLong
  else if b = 9 then .ok int24 else if b = 10 then .ok date else if b = 11 then .ok time
  else if b = 12 then .ok datetime else if b = 13 then .ok year else if b = 14 then .ok newDate
  else if b = 15 then .ok varchar else if b = 16 then .ok bit else if b = 17 then .ok timestamp2
  else if b = 18 then .ok datetime2 else if b = 19 then .ok time2
  else if b = 20 then .ok typedArray else if b = 243 then .ok unknown
  else if b = 245 then .ok json else if b = 246 then .ok newDecimal else if b = 247 then .ok enum
  else if b = 248 then .ok set else if b = 249 then .ok tinyBlob
  else if b = 250 then .ok mediumBlob else if b = 251 then .ok longBlob
  else if b = 252 then .ok blob else if b = 253 then .ok varString else if b = 254 then .ok string
  else if b = 255 then .ok geometry else .err (.columnType b)

/-! ### Flags (src/connection/bitflags.rs)

A `bitflags` struct is its bit word.  `contains` tests that all bits of the mask are set. -/

def hasFlag8 (w m : UInt8) : Bool := w &&& m == m
def hasFlag16 (w m : UInt16) : Bool := w &&& m == m
def hasFlag32 (w m : UInt32) : Bool := w &&& m == m

namespace Cap
/-! src/connection/bitflags.rs 117-353 -/
def CONNECT_WITH_DB : UInt32 := 0x00000008
def PROTOCOL_41 : UInt32 := 0x00000200
def TRANSACTIONS : UInt32 := 0x00002000
def SECURE_CONNECTION : UInt32 := 0x00008000
def PS_MULTI_RESULTS : UInt32 := 0x00040000
def PLUGIN_AUTH : UInt32 := 0x00080000
def CONNECT_ATTRS : UInt32 := 0x00100000
def PLUGIN_AUTH_LENENC_CLIENT_DATA : UInt32 := 0x00200000
def SESSION_TRACK : UInt32 := 0x00800000
def DEPRECATE_EOF : UInt32 := 0x01000000
def PROGRESS_OBSOLETE : UInt32 := 0x20000000
/-- every bit of the word is a declared flag (lines 120-351), so `from_bits` always succeeds. -/
def ALL : UInt32 := 0xFFFFFFFF
end Cap

namespace Status
/-- src/connection/bitflags.rs 62-115: all declared status flags (bit 0x0004 is not declared). -/
def ALL : UInt16 := 0xFFFB
def SESSION_STATE_CHANGED : UInt16 := 0x4000
end Status

namespace ColFlag
/-- src/connection/bitflags.rs 376-426: every bit is declared. -/
def ALL : UInt16 := 0xFFFF
def UNSIGNED : UInt16 := 32
end ColFlag

/-- src/connection/bitflags.rs 16-22 `TryFrom<u32>` = `from_bits`: rejects undeclared bits. -/
def capTryFrom (w : UInt32) : Out InvalidFlags UInt32 :=
  if w &&& ~~~Cap.ALL = 0 then .ok w else .err (.capability w)

def statusTryFrom (w : UInt16) : Out InvalidFlags UInt16 :=
  if w &&& ~~~Status.ALL = 0 then .ok w else .err (.status w)

def colFlagTryFrom (w : UInt16) : Out InvalidFlags UInt16 :=
  if w &&& ~~~ColFlag.ALL = 0 then .ok w else .err (.column w)

/-- `StatusFlags::from_bits_truncate` (bitflags crate): undeclared bits are dropped. -/
def statusTruncate (w : UInt16) : UInt16 := w &&& Status.ALL

/-- src/connection/command.rs 4-38: the commands that are used. -/
inductive Command where
  | quit | query | stmtPrepare | stmtExecute | stmtSendLongData | stmtClose
  deriving DecidableEq, Repr

/-- discriminants: `Sleep = 0, Quit, InitDb, Query, …` counted in src/connection/command.rs 5-37. -/
def Command.toByte : Command → UInt8
  | quit => 1 | query => 3 | stmtPrepare => 22 | stmtExecute => 23
  | stmtSendLongData => 24 | stmtClose => 25

/-- src/types/value/mod.rs 58-72 `Value::column_type`. -/
def Value.columnType : Value → ColumnType
  | .null => .null
  | .tiny _ | .utiny _ => .tiny
  | .short _ | .ushort _ => .short
  | .int _ | .uint _ => .long
  | .long _ | .ulong _ => .longLong
  | .float _ => .float
  | .double _ => .double
  | .bytes _ => .varString
  | .date .. => .date
  | .time .. => .time
  | .datetime .. => .datetime

/-- src/types/value/mod.rs 74-79 `Value::is_unsigned`. -/
def Value.isUnsigned : Value → Bool
  | .utiny _ | .ushort _ | .uint _ | .ulong _ => true
  | _ => false

end Verif

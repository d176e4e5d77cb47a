import Verif.Model.Utf8
import Verif.Model.Io

/-!
# Server packets

Mirrors `src/connection/packets/{err,ok,stmt,column_def}.rs` and `src/connection/types/column.rs`.
-/

namespace Verif

/-- `ParseBuf(&packet)` handed to a decoder: only the result is used. -/
def runP {α : Type} (p : P α) (bs : Bytes) : Out ProtocolError α := (p bs).1

/-- err.rs 78-106 `ErrorPacket::deserialize`. -/
def ErrPacket.deserializeError (code : UInt16) (protocol41 : Bool) : P ErrPacket := do
  let state ←
    if protocol41 then do
      let m ← P.checkedEatU8
      if m ≠ 0x23 then do
        let rest ← SM.get
        SM.fail (.invalidPacket rest)
      else do
        let s ← P.checkedEat 5
        match fromUtf8 s with
        | some _ => pure (some s)
        | none => SM.fail (.parse .utf8)
    else pure none
  let rest ← P.eatAll
  match fromUtf8 rest with
  | some msg => pure (.error code state msg)
  | none => SM.fail (.parse .fromUtf8)

/-- err.rs 134-151 `ProgressPacket::deserialize`. -/
def ErrPacket.deserializeProgress : P ErrPacket := do
  P.checkLen 6
  P.skip 1
  let stage ← P.eatU8
  let maxStage ← P.eatU8
  let progress ← P.eatU24
  let info ← P.checkedEatLenencSlice
  pure (.progress stage maxStage progress info)

/-- err.rs 16-37 `ErrPacket::deserialize`. -/
def ErrPacket.deserialize (caps : UInt32) : P ErrPacket := do
  P.checkLen 3
  let h ← P.eatU8
  if h ≠ 0xFF then do
    let rest ← SM.get
    SM.fail (.unexpectedPacket rest)
  else do
    let code ← P.eatU16
    if code = 0xFFFF ∧ hasFlag32 caps Cap.PROGRESS_OBSOLETE then ErrPacket.deserializeProgress
    else ErrPacket.deserializeError code (hasFlag32 caps Cap.PROTOCOL_41)

/-- ok.rs 8-16 `OkPacket`. -/
structure OkPacket where
  affectedRows : UInt64
  lastInsertId : UInt64
  status : UInt16
  warnings : UInt16
  message : Option Str
  sessionStateInfo : Option Str
  deriving DecidableEq, Repr

/-- ok.rs 64-67, 71-74: an unreadable or empty string is `None`. -/
def optStr : P (Option Str) := do
  let r ← SM.attempt P.checkedEatLenencStr
  match r with
  | .ok s => pure (if s = [] then none else some s)
  | .error _ => pure none

/-- ok.rs 55-78, 93-115: the common tail of `read_ok` and `read_eof`. -/
def OkPacket.readTail (caps : UInt32) (affected lastId : UInt64) : P OkPacket := do
  let status := statusTruncate (← P.checkedEatU16)
  let warnings ← P.checkedEatU16
  let message ← optStr
  let info ←
    if hasFlag32 caps Cap.SESSION_TRACK && hasFlag16 status Status.SESSION_STATE_CHANGED then optStr
    else pure none
  pure { affectedRows := affected, lastInsertId := lastId, status := status, warnings := warnings,
         message := message, sessionStateInfo := info }

/-- ok.rs 45-79 `read_ok`. -/
def OkPacket.readOk (caps : UInt32) : P OkPacket := do
  let h ← P.checkedEatU8
  if h ≠ 0 then do
    let rest ← SM.get
    SM.fail (.unexpectedPacket rest)
  else do
    let affected ← P.checkedEatLenencInt
    let lastId ← P.checkedEatLenencInt
    OkPacket.readTail caps affected lastId

/-- ok.rs 81-116 `read_eof`: the packet marker is *not* skipped; two length-encoded integers are
read off the front and dropped, errors included. -/
def OkPacket.readEof (caps : UInt32) : P OkPacket := do
  SM.ignore P.checkedEatLenencInt
  SM.ignore P.checkedEatLenencInt
  OkPacket.readTail caps 0 0

/-- stmt.rs 5-10. -/
structure Stmt where
  id : UInt32
  columnsLen : UInt16
  paramsLen : UInt16
  warningCount : UInt16
  deriving DecidableEq, Repr

/-- stmt.rs 16-28 `Stmt::deserialize`. -/
def Stmt.deserialize : P Stmt := do
  P.checkLen 12
  P.skip 1
  let id ← P.eatU32
  let columns ← P.eatU16
  let params ← P.eatU16
  P.skip 1
  let warnings ← P.eatU16
  pure { id := id, columnsLen := columns, paramsLen := params, warningCount := warnings }

/-- column_def.rs 8-19. -/
structure ColumnDef where
  db : Str
  table : Str
  orgTable : Str
  name : Str
  orgName : Str
  charset : UInt16
  length : UInt32
  type : ColumnType
  flags : UInt16
  decimals : UInt8
  deriving DecidableEq, Repr

/-- column_def.rs 25-55 `ColumnDef::deserialize`. -/
def ColumnDef.deserialize : P ColumnDef := do
  let cat ← P.checkedEatU8Slice
  if cat ≠ [0x64, 0x65, 0x66] then do
    let rest ← SM.get
    SM.fail (.unexpectedPacket rest)
  else do
    let db ← P.checkedEatU8Str
    let table ← P.checkedEatU8Str
    let orgTable ← P.checkedEatU8Str
    let name ← P.checkedEatU8Str
    let orgName ← P.checkedEatU8Str
    P.checkLen 13
    let fixed ← P.eatU8
    if fixed ≠ 12 then SM.fail .eof
    else do
      let charset ← P.eatU16
      let length ← P.eatU32
      let tb ← P.eatU8
      let type ← SM.ofOut ((ColumnType.ofByte tb).mapErr fun f => .parse (.unknownBitflags f))
      let fb ← P.eatU16
      let flags ← SM.ofOut ((colFlagTryFrom fb).mapErr fun f => .parse (.unknownBitflags f))
      let decimals ← P.eatU8
      P.skip 2
      pure { db := db, table := table, orgTable := orgTable, name := name, orgName := orgName,
             charset := charset, length := length, type := type, flags := flags,
             decimals := decimals }

/-- src/connection/types/column.rs 6-14 `Column`. -/
structure Column where
  orgName : Str
  name : Str
  orgTable : Str
  table : Str
  type : ColumnType
  flags : UInt16
  deriving DecidableEq, Repr

/-- column.rs 16-29 `TryFrom<ColumnDef>` (re-encoding valid strings never fails). -/
def Column.ofDef (d : ColumnDef) : Column :=
  { orgName := d.orgName, name := d.name, orgTable := d.orgTable, table := d.table,
    type := d.type, flags := d.flags }

end Verif

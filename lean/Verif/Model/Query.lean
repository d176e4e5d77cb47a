import Verif.Model.Text
import Verif.Model.Stmt

/-!
# Commands, responses and result sets

Mirrors `src/connection/query.rs`, `src/connection/result_set.rs`,
`src/connection/prepared_statement.rs` and the command functions of `src/connection/io.rs`.

Results are read into any type `R` with a `FromQueryResult` implementation; what matters of it is
the function `mk columns row` = `R::from_mapping_and_row(&R::Mapping::from_columns(columns), row)`
(src/model/from_query_result.rs 3-32), the mapping being a function of the columns.  The protocol
parameter `P` of `ResultSet` is its row decoder.
-/

namespace Verif

/-- `?` on a `Result<_, ProtocolError>` inside a function returning `Result<_, Error>`. -/
def liftP {α : Type} (x : Out ProtocolError α) : M α := SM.ofOut (x.mapErr .protocol)

/-- `?` on a `Result<_, ParseError>` (src/error/protocol.rs: `From<ParseError>`). -/
def liftParse {α : Type} (x : Out ParseError α) : M α :=
  SM.ofOut (x.mapErr fun e => .protocol (.parse e))

/-- io.rs 153-171 `decode_response`. -/
def decodeResponse (packet : Bytes) : M (Except ErrPacket OkPacket) := do
  let c ← SM.get
  match packet with
  | [] => SM.fail (.protocol .eof)
  | b :: _ =>
    if b = 0x00 then do
      let ok ← liftP (runP (OkPacket.readOk c.data.capabilities) packet)
      pure (.ok ok)
    else if b = 0xFF then do
      let e ← liftP (runP (ErrPacket.deserialize c.data.capabilities) packet)
      pure (.error e)
    else SM.fail (.protocol (.unexpectedPacket packet))

/-- io.rs 173-176 `read_response`. -/
def readResponse : M (Except ErrPacket OkPacket) := do
  let packet ← readPacket
  decodeResponse packet

/-- `.await?.map_err(Into::into)` on a response. -/
def okOrServerError (r : Except ErrPacket OkPacket) : M OkPacket :=
  match r with
  | .ok ok => pure ok
  | .error e => SM.fail (.server e)

/-- result_set.rs 71-80, 153-161: the end-of-result test; `packet[0]` panics on an empty packet. -/
def isLast (caps : UInt32) (packet : Bytes) : Out Error Bool :=
  match packet with
  | [] => .panic
  | b :: _ =>
    if hasFlag32 caps Cap.DEPRECATE_EOF then .ok (b == 0xFE && packet.length < MAX_PAYLOAD_LEN)
    else .ok (b == 0xFE && packet.length < 8)

/-- result_set.rs 151-166: the loop of `cleanup`. -/
def cleanupLoop : Nat → M OkPacket
  | 0 => SM.crash
  | fuel + 1 => do
    let packet ← readPacket
    let c ← SM.get
    let last ← SM.ofOut (isLast c.data.capabilities packet)
    if last then do
      SM.modify fun c => { c with pendingResult := false }
      liftP (runP (OkPacket.readEof c.data.capabilities) packet)
    else cleanupLoop fuel

/-- result_set.rs 149-170 `cleanup`; every iteration consumes at least four elements of the tape. -/
def cleanup : M (Option OkPacket) := fun c =>
  if c.pendingResult then
    (do let ok ← cleanupLoop (c.rx.length + 1); pure (some ok) : M (Option OkPacket)) c
  else (.ok none, c)

/-- query.rs 28-39 `execute_command`. -/
def executeCommand (cmd : Command) (data : Bytes) : M Unit := do
  let _ ← cleanup
  SM.modify fun c => { c with seqId := 0 }
  writePacket (cmd.toByte :: data)

/-- io.rs 147-151 `write_command` of an already serialized struct. -/
def writeCommand (bytes : Bytes) : M Unit := do
  let _ ← cleanup
  SM.modify fun c => { c with seqId := 0 }
  writePacket bytes

/-- query.rs 43-48: the loop of `read_column_defs`. -/
def readColumnDefs : Nat → M (List Column)
  | 0 => pure []
  | n + 1 => do
    let packet ← readPacket
    let d ← liftP (runP ColumnDef.deserialize packet)
    let cs ← readColumnDefs n
    pure (Column.ofDef d :: cs)

/-- the largest number of columns for which room can be asked for: `Column` (connection/types/column.rs 7-14) takes 104 bytes (four
strings of 24, type and flags) on a machine with 64 bits, a `Vec` at most `isize::MAX`. -/
def columnLimit : Nat := (2 ^ 63 - 1) / 104

/-- query.rs 41-49 `read_column_defs`: `Vec::with_capacity` (42) panics if that is exceeded. -/
def readColumns (count : Nat) : M (List Column) :=
  if columnLimit < count then SM.crash else readColumnDefs count

/-- result_set.rs 15-25 `ResultSet` without the connection and the mapping. -/
structure RSet where
  columns : List Column
  okPacket : Option OkPacket
  deriving DecidableEq, Repr

/-- result_set.rs 32-53 `ResultSet::read`. -/
def RSet.read : M RSet := do
  let packet ← readPacket
  let c ← SM.get
  match packet with
  | b :: _ =>
    if b = 0x00 then do
      let r ← decodeResponse packet
      let ok ← okOrServerError r
      pure { columns := [], okPacket := some ok }
    else if b = 0xFB then SM.crash
    else if b = 0xFF then do
      let e ← liftP (runP (ErrPacket.deserialize c.data.capabilities) packet)
      SM.fail (.server e)
    else do
      SM.modify fun c => { c with pendingResult := true }
      let n ← liftP (runP P.checkedEatLenencInt packet)
      let cols ← readColumns n.toNat
      pure { columns := cols, okPacket := none }
  | [] => do
    SM.modify fun c => { c with pendingResult := true }
    let n ← liftP (runP P.checkedEatLenencInt packet)
    let cols ← readColumns n.toNat
    pure { columns := cols, okPacket := none }

/-- how rows are read: `P::read_result_set_row` and `R::from_mapping_and_row`. -/
structure RowReader (R : Type) where
  row : Bytes → List Column → Out ProtocolError (List Value)
  build : List Column → List Value → Out ParseError R

/-- src/model/plain.rs 11-22: `R = Vec<Value>`. -/
def mkPlain (columns : List Column) (row : List Value) : Out ParseError (List Value) :=
  if row.length ≠ columns.length then .err .rowLengthMismatch else .ok row

def textReader {R : Type} (fp : FloatParse) (mk : List Column → List Value → Out ParseError R) :
    RowReader R := { row := readTextRow fp, build := mk }
def binReader {R : Type} (mk : List Column → List Value → Out ParseError R) : RowReader R :=
  { row := readBinRow, build := mk }

/-- result_set.rs 66-89 `next`; the new state of the result set is part of the result (it only
changes when the call succeeds with the end of the rows). -/
def RSet.next {R : Type} (rd : RowReader R) (rs : RSet) : M (RSet × Option R) := do
  if rs.okPacket.isSome then pure (rs, none)
  else do
    let packet ← readPacket
    let c ← SM.get
    let last ← SM.ofOut (isLast c.data.capabilities packet)
    if last then do
      let ok ← liftP (runP (OkPacket.readEof c.data.capabilities) packet)
      SM.modify fun c => { c with pendingResult := false }
      pure ({ rs with okPacket := some ok }, none)
    else do
      let row ← liftP (rd.row packet rs.columns)
      let r ← liftParse (rd.build rs.columns row)
      pure (rs, some r)

/-- result_set.rs 93-95: the loop of `collect`; `fuel` bounds the number of iterations. -/
def RSet.collectLoop {R : Type} (rd : RowReader R) : Nat → RSet → M (RSet × List R)
  | 0, _ => SM.crash
  | fuel + 1, rs => do
    let (rs', r?) ← rs.next rd
    match r? with
    | none => pure (rs', [])
    | some r => do
      let (rs'', l) ← collectLoop rd fuel rs'
      pure (rs'', r :: l)

/-- result_set.rs 91-97 `collect`. -/
def RSet.collect {R : Type} (rd : RowReader R) (rs : RSet) : M (RSet × List R) := fun c =>
  RSet.collectLoop rd (c.rx.length + 2) rs c

/-- result_set.rs 101, 129: `while self.next().await?.is_some() {}`. -/
def RSet.drain {R : Type} (rd : RowReader R) (rs : RSet) : M RSet := do
  let (rs', _) ← rs.collect rd
  pure rs'

/-- result_set.rs 99-103 `one`: an error of the first `next` is returned after draining. -/
def RSet.one {R : Type} (rd : RowReader R) (rs : RSet) : M (RSet × Option R) := do
  let res ← SM.attempt (rs.next rd)
  match res with
  | .ok (rs', r?) => do
    let rs'' ← rs'.drain rd
    pure (rs'', r?)
  | .error e => do
    let _ ← rs.drain rd
    SM.fail e

/-- result_set.rs 125-134 `finish`; `unwrap` panics on `None`. -/
def RSet.finish {R : Type} (rd : RowReader R) (rs : RSet) : M OkPacket := do
  match rs.okPacket with
  | some ok => pure ok
  | none => do
    let rs' ← rs.drain rd
    match rs'.okPacket with
    | some ok => pure ok
    | none => SM.crash

/-- query.rs 15-21 `query`. -/
def query (sql : Str) : M RSet := do
  executeCommand .query (utf8 sql)
  RSet.read

/-- query.rs 23-26 `execute_query`. -/
def executeQuery (sql : Str) : M OkPacket := do
  executeCommand .query (utf8 sql)
  let r ← readResponse
  okOrServerError r

/-- init.rs 32-34 `disconnect`. -/
def disconnect : M Unit := executeCommand .quit []

/-! ### Prepared statements -/

/-- prepared_statement.rs 12-17 `PreparedStatement` without the connection. -/
structure Prepared where
  id : UInt32
  params : Nat
  deriving DecidableEq, Repr

/-- prepared_statement.rs 58-60: read and drop `n` packets. -/
def skipPackets : Nat → M Unit
  | 0 => pure ()
  | n + 1 => do
    let _ ← readPacket
    skipPackets n

/-- prepared_statement.rs 45-67 `prepare_statement`. -/
def prepareStatement (sql : Str) : M Prepared := do
  executeCommand .stmtPrepare (utf8 sql)
  let packet ← readPacket
  let c ← SM.get
  match packet with
  | b :: _ =>
    if b = 0x00 then do
      let stmt ← liftP (runP Stmt.deserialize packet)
      skipPackets (stmt.paramsLen.toNat + stmt.columnsLen.toNat)
      pure { id := stmt.id, params := stmt.paramsLen.toNat }
    else if b = 0xFF then do
      let e ← liftP (runP (ErrPacket.deserialize c.data.capabilities) packet)
      SM.fail (.server e)
    else SM.fail (.protocol (.unexpectedPacket packet))
  | [] => SM.fail (.protocol (.unexpectedPacket packet))

/-- `slice::chunks(n)` for `n > 0`; fuel bounds the number of pieces. -/
def chunksLoop (n : Nat) : Nat → Bytes → List Bytes
  | 0, _ => []
  | fuel + 1, bs => if bs = [] then [] else bs.take n :: chunksLoop n fuel (bs.drop n)

def chunks (n : Nat) (bs : Bytes) : List Bytes := chunksLoop n bs.length bs

/-- io.rs 30-41: the pieces sent for one parameter. -/
def longDataPieces (v : Value) : List Bytes :=
  match v with
  | .bytes b => if b = [] then [[]] else chunks (MAX_PAYLOAD_LEN - 6) b
  | _ => []

/-- io.rs 36-39: the inner loop. -/
def sendPieces (id : UInt32) (i : Nat) : List Bytes → M Unit
  | [] => pure ()
  | p :: ps => do
    writeCommand (longDataBytes id (UInt16.ofNat i) p)
    sendPieces id i ps

/-- io.rs 20-44 `send_long_data`, from parameter `i` on. -/
def sendLongData (id : UInt32) : Nat → List Value → M Unit
  | _, [] => pure ()
  | i, v :: vs => do
    sendPieces id i (longDataPieces v)
    sendLongData id (i + 1) vs

/-- prepared_statement.rs 74-80, 89-95: build the request, send long data if needed, send it. -/
def sendExecute (id : UInt32) (params : List Value) : M Unit := do
  let req ← SM.ofOut (ExecRequest.new id params)
  if req.asLongData then do
    sendLongData id 0 params
    writeCommand req.serialize
  else writeCommand req.serialize

/-- prepared_statement.rs 20-31, 69-82 `query`. -/
def Prepared.query (p : Prepared) (values : List Value) : M RSet := do
  if values.length ≠ p.params then SM.fail (.runtime .parameterCountMismatch)
  else do
    sendExecute p.id values
    RSet.read

/-- prepared_statement.rs 33-41, 84-97 `execute`. -/
def Prepared.execute (p : Prepared) (values : List Value) : M OkPacket := do
  if values.length ≠ p.params then SM.fail (.runtime .parameterCountMismatch)
  else do
    sendExecute p.id values
    let r ← readResponse
    okOrServerError r

/-- query.rs 59-67: the limit in the row, if the column is there. `row[i]` panics when the row is too
short. -/
def limitOf (cols : List Column) (row : List Value) : Out Error (Option Nat) :=
  let i := cols.findIdx (fun col => col.name == "@@max_allowed_packet".toList)
  if i < cols.length then
    match row[i]? with
    | some (.ulong n) => .ok (some n.toNat)
    | some v => .err (.protocol (.parse (.wrongValue .ulong v)))
    | none => .panic
  else .ok none

/-- query.rs 70-71. -/
def storeLimit : Option Nat → M Unit
  | some n => SM.modify fun c => { c with data.maxAllowedPacket := n }
  | none => pure ()

/-- query.rs 53-67: ask and record. -/
def askLimit (fp : FloatParse) : M Unit := do
  let rs ← query "select @@max_allowed_packet".toList
  let (rs', row?) ← rs.next (textReader fp mkPlain)
  match row? with
  | none => pure ()
  | some row => do
    let n ← SM.ofOut (limitOf rs'.columns row)
    storeLimit n

/-- query.rs 51-70 `read_settings`; the text of the number is decoded by the text protocol. -/
def readSettings (fp : FloatParse) : M Unit := do
  let c ← SM.get
  if c.options.maxAllowedPacket.isNone then askLimit fp else pure ()

end Verif

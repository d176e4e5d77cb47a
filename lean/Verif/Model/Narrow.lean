import Verif.Model.Api
import Verif.Model.Crypt

/-!
# A target with addresses of 32 bits

The rest of the model is that of a target on which `usize` has 64 bits.  /repo is written for others too (crypt.rs 172
asks for the width).  Here are those functions of /repo in which it shows, as a target with 32 bits runs them, and the
functions that call them, up to the calls on a connection.  Sizes of data in memory fit into `usize` on either target.
-/

namespace Verif
namespace Narrow

/-- `x as usize` of a `u64`. -/
def usize (x : UInt64) : Nat := x.toNat % 2 ^ 32

/-! ### packets -/

/-- parse_buf.rs 179-182 `checked_eat_lenenc_slice`. -/
def checkedEatLenencSlice : P Bytes := do
  let len ← P.checkedEatLenencInt
  P.checkedEat (usize len)

/-- parse_buf.rs 184-186 `checked_eat_lenenc_str`. -/
def checkedEatLenencStr : P Str := do
  let s ← checkedEatLenencSlice
  match fromUtf8 s with
  | some x => pure x
  | none => SM.fail (.parse .utf8)

/-- err.rs 134-151 `ProgressPacket::deserialize`. -/
def deserializeProgress : P ErrPacket := do
  P.checkLen 6
  P.skip 1
  let stage ← P.eatU8
  let maxStage ← P.eatU8
  let progress ← P.eatU24
  let info ← checkedEatLenencSlice
  pure (.progress stage maxStage progress info)

/-- err.rs 16-37 `ErrPacket::deserialize`. -/
def errPacket (caps : UInt32) : P ErrPacket := do
  P.checkLen 3
  let h ← P.eatU8
  if h ≠ 0xFF then do
    let rest ← SM.get
    SM.fail (.unexpectedPacket rest)
  else do
    let code ← P.eatU16
    if code = 0xFFFF ∧ hasFlag32 caps Cap.PROGRESS_OBSOLETE then deserializeProgress
    else ErrPacket.deserializeError code (hasFlag32 caps Cap.PROTOCOL_41)

/-- ok.rs 64-67, 71-74. -/
def optStr : P (Option Str) := do
  let r ← SM.attempt checkedEatLenencStr
  match r with
  | .ok s => pure (if s = [] then none else some s)
  | .error _ => pure none

/-- ok.rs 55-78, 93-115. -/
def readTail (caps : UInt32) (affected lastId : UInt64) : P OkPacket := do
  let status := statusTruncate (← P.checkedEatU16)
  let warnings ← P.checkedEatU16
  let message ← optStr
  let info ←
    if hasFlag32 caps Cap.SESSION_TRACK && hasFlag16 status Status.SESSION_STATE_CHANGED then optStr
    else pure none
  pure { affectedRows := affected, lastInsertId := lastId, status := status, warnings := warnings,
         message := message, sessionStateInfo := info }

/-- ok.rs 45-79 `read_ok`. -/
def readOk (caps : UInt32) : P OkPacket := do
  let h ← P.checkedEatU8
  if h ≠ 0 then do
    let rest ← SM.get
    SM.fail (.unexpectedPacket rest)
  else do
    let affected ← P.checkedEatLenencInt
    let lastId ← P.checkedEatLenencInt
    readTail caps affected lastId

/-- ok.rs 81-116 `read_eof`. -/
def readEof (caps : UInt32) : P OkPacket := do
  SM.ignore P.checkedEatLenencInt
  SM.ignore P.checkedEatLenencInt
  readTail caps 0 0

/-! ### rows -/

/-- text.rs 293-308 `deserialize_text`. -/
def deserializeText (fp : FloatParse) (t : ColumnType) (flags : UInt16) : P Value := do
  let s ← SM.get
  match s with
  | [] => SM.fail .eof
  | b :: _ =>
    if b = 0xFB then do
      P.skip 1
      pure .null
    else do
      let bytes ← checkedEatLenencSlice
      SM.ofOut (textValue fp t flags bytes)

/-- protocol.rs 13-28: the loop over the columns. -/
def textRowLoop (fp : FloatParse) : List Column → P (List Value)
  | [] => pure []
  | c :: cs => do
    let v ← deserializeText fp c.type c.flags
    let vs ← textRowLoop fp cs
    pure (v :: vs)

/-- protocol.rs 13-28 `TextProtocol::read_result_set_row`. -/
def readTextRow (fp : FloatParse) (packet : Bytes) (columns : List Column) : Out ProtocolError (List Value) :=
  runP (textRowLoop fp columns) packet

/-- bin.rs 212-254 `deserialize_bin`: the types with a length are those of 232-247, all others are read as on a
target with 64 bits. -/
def deserializeBin (t : ColumnType) (flags : UInt16) : P Value :=
  match t with
  | .string | .varString | .varchar | .blob | .tinyBlob | .mediumBlob | .longBlob | .set | .enum
  | .decimal | .bit | .newDecimal | .geometry | .json => do
    return .bytes (← checkedEatLenencSlice)
  | t => Verif.deserializeBin t flags

/-- protocol.rs 40-51: the loop over the columns from index `i` on. -/
def binRowLoop (bitmap : Bytes) : Nat → List Column → P (List Value)
  | _, [] => pure []
  | i, c :: cs => do
    let null ← SM.ofOut (NullBitmap.isNull false bitmap i)
    if null then do
      let vs ← binRowLoop bitmap (i + 1) cs
      pure (.null :: vs)
    else do
      let v ← deserializeBin c.type c.flags
      let vs ← binRowLoop bitmap (i + 1) cs
      pure (v :: vs)

/-- protocol.rs 34-54 `BinaryProtocol::read_result_set_row`. -/
def readBinRow (packet : Bytes) (columns : List Column) : Out ProtocolError (List Value) :=
  runP (do
    P.skip 1
    let bitmap ← NullBitmap.deserialize false columns.length
    binRowLoop bitmap 0 columns) packet

/-! ### public keys -/

/-- crypt.rs 20-36 `eat_len`: `BITS` is 4. -/
def derLen : D Nat := fun s =>
  match s with
  | [] => (.panic, s)
  | b :: r =>
    if b &&& 0x80 = 0x80 then
      let len := (b &&& 0x7F).toNat
      if len > 4 then (.err .invalidPem, s)
      else if r.length < len then (.panic, s)
      else (.ok (beNat (r.take len)), r.drop len)
    else (.ok b.toNat, r)

/-- crypt.rs 38-47 `eat_uint`. -/
def derUint : D Nat := do
  derTag 0x02
  let len ← derLen
  let bs ← derTake len
  pure (beNat bs)

/-- crypt.rs 49-58 `eat_sequence`. -/
def derSequence : D Bytes := do
  derTag 0x30
  let len ← derLen
  derTake len

/-- crypt.rs 60-70 `eat_bit_string`. -/
def derBitString : D (UInt8 × Bytes) := do
  derTag 0x03
  let len ← derLen
  derBits len

/-- crypt.rs 73-78 `try_from_pkcs1`. -/
def tryFromPkcs1 (der : Bytes) : Out CryptError PublicKey :=
  (derSequence der).1 >>= fun body =>
    ((do let m ← derUint
         let e ← derUint
         pure { modulus := m, exponent := e } : D PublicKey) body).1

/-- crypt.rs 80-88 `try_from_pkcs8`. -/
def tryFromPkcs8 (der : Bytes) : Out CryptError PublicKey :=
  (derSequence der).1 >>= fun seqData =>
    ((do let _ ← derSequence
         derBitString : D (UInt8 × Bytes)) seqData).1 >>= fun p =>
      if p.1 ≠ 0 then .err .invalidPem else tryFromPkcs1 p.2

/-- crypt.rs 90-114 `try_from_pem`. -/
def tryFromPem (pem : Bytes) : Out CryptError PublicKey :=
  let pem := pem.filter (fun b => !pemSpace b)
  let sel : Out CryptError (Bytes × Bool) :=
    if pkcs1Begin.isPrefixOf pem ∧ pkcs1End.isSuffixOf pem then
      (pemBody pem pkcs1Begin pkcs1End).map' (·, true)
    else if pkcs8Begin.isPrefixOf pem ∧ pkcs8End.isSuffixOf pem then
      (pemBody pem pkcs8Begin pkcs8End).map' (·, false)
    else .err .invalidPem
  sel >>= fun p =>
    match b64Decode p.1 with
    | none => .err .invalidPem
    | some body => if p.2 then tryFromPkcs1 body else tryFromPkcs8 body

/-- crypt.rs 171-194 `mgf1`: the check 172-175 is not compiled. -/
def mgf1 (h : Hashes) (seed : Bytes) (len : Nat) : Out CryptError Bytes :=
  let full := (List.range (len / HASH_LEN)).flatMap fun i => h.sha1 (seed ++ be32 i)
  let remaining := len % HASH_LEN
  if remaining > 0 then .ok (full ++ (h.sha1 (seed ++ be32 (len / HASH_LEN))).take remaining)
  else .ok full

/-- crypt.rs 129-131 `num_octets`: the sum is checked for overflow in a debug build, and wraps in a release build. -/
def numOctets (checked : Bool) (k : PublicKey) : Out CryptError Nat :=
  let bits := natBits k.modulus % 2 ^ 32
  if bits + 6 < 2 ^ 32 then .ok ((bits + 6) / 8)
  else if checked then .panic
  else .ok ((bits + 6) % 2 ^ 32 / 8)

/-! ### calls -/

/-- io.rs 153-171 `decode_response`. -/
def decodeResponse (packet : Bytes) : M (Except ErrPacket OkPacket) := do
  let c ← SM.get
  match packet with
  | [] => SM.fail (.protocol .eof)
  | b :: _ =>
    if b = 0x00 then do
      let ok ← liftP (runP (readOk c.data.capabilities) packet)
      pure (.ok ok)
    else if b = 0xFF then do
      let e ← liftP (runP (errPacket c.data.capabilities) packet)
      pure (.error e)
    else SM.fail (.protocol (.unexpectedPacket packet))

/-- io.rs 173-176 `read_response`. -/
def readResponse : M (Except ErrPacket OkPacket) := do
  let packet ← readPacket
  decodeResponse packet

/-- result_set.rs 151-166: the loop of `cleanup`. -/
def cleanupLoop : Nat → M OkPacket
  | 0 => SM.crash
  | fuel + 1 => do
    let packet ← readPacket
    let c ← SM.get
    let last ← SM.ofOut (isLast c.data.capabilities packet)
    if last then do
      SM.modify fun c => { c with pendingResult := false }
      liftP (runP (readEof c.data.capabilities) packet)
    else cleanupLoop fuel

/-- result_set.rs 149-170 `cleanup`. -/
def cleanup : M (Option OkPacket) := fun c =>
  if c.pendingResult then
    (do let ok ← cleanupLoop (c.rx.length + 1); pure (some ok) : M (Option OkPacket)) c
  else (.ok none, c)

/-- query.rs 28-39 `execute_command`. -/
def executeCommand (cmd : Command) (data : Bytes) : M Unit := do
  let _ ← cleanup
  SM.modify fun c => { c with seqId := 0 }
  writePacket (cmd.toByte :: data)

/-- io.rs 147-151 `write_command`. -/
def writeCommand (bytes : Bytes) : M Unit := do
  let _ ← cleanup
  SM.modify fun c => { c with seqId := 0 }
  writePacket bytes

/-- `Column` takes 52 bytes (four strings of 12, type and flags), a `Vec` at most `isize::MAX`. -/
def columnLimit : Nat := (2 ^ 31 - 1) / 52

/-- query.rs 41-49 `read_column_defs`. -/
def readColumns (count : Nat) : M (List Column) :=
  if columnLimit < count then SM.crash else readColumnDefs count

/-- result_set.rs 32-53 `ResultSet::read`. -/
def read : M RSet := do
  let packet ← readPacket
  let c ← SM.get
  match packet with
  | b :: _ =>
    if b = 0x00 then do
      let r ← decodeResponse packet
      let ok ← okOrServerError r
      pure { columns := [], okPacket := some ok }
    else if b = 0xFB then SM.crash
    else if b = 0xFF then do
      let e ← liftP (runP (errPacket c.data.capabilities) packet)
      SM.fail (.server e)
    else do
      SM.modify fun c => { c with pendingResult := true }
      let n ← liftP (runP P.checkedEatLenencInt packet)
      let cols ← readColumns (usize n)
      pure { columns := cols, okPacket := none }
  | [] => do
    SM.modify fun c => { c with pendingResult := true }
    let n ← liftP (runP P.checkedEatLenencInt packet)
    let cols ← readColumns (usize n)
    pure { columns := cols, okPacket := none }

def textReader {R : Type} (fp : FloatParse) (mk : List Column → List Value → Out ParseError R) : RowReader R :=
  { row := readTextRow fp, build := mk }
def binReader {R : Type} (mk : List Column → List Value → Out ParseError R) : RowReader R :=
  { row := readBinRow, build := mk }

/-- result_set.rs 66-89 `next`. -/
def next {R : Type} (rd : RowReader R) (rs : RSet) : M (RSet × Option R) := do
  if rs.okPacket.isSome then pure (rs, none)
  else do
    let packet ← readPacket
    let c ← SM.get
    let last ← SM.ofOut (isLast c.data.capabilities packet)
    if last then do
      let ok ← liftP (runP (readEof c.data.capabilities) packet)
      SM.modify fun c => { c with pendingResult := false }
      pure ({ rs with okPacket := some ok }, none)
    else do
      let row ← liftP (rd.row packet rs.columns)
      let r ← liftParse (rd.build rs.columns row)
      pure (rs, some r)

/-- result_set.rs 93-95: the loop of `collect`. -/
def collectLoop {R : Type} (rd : RowReader R) : Nat → RSet → M (RSet × List R)
  | 0, _ => SM.crash
  | fuel + 1, rs => do
    let (rs', r?) ← next rd rs
    match r? with
    | none => pure (rs', [])
    | some r => do
      let (rs'', l) ← collectLoop rd fuel rs'
      pure (rs'', r :: l)

/-- result_set.rs 91-97 `collect`. -/
def collect {R : Type} (rd : RowReader R) (rs : RSet) : M (RSet × List R) := fun c =>
  collectLoop rd (c.rx.length + 2) rs c

/-- result_set.rs 101, 129. -/
def drain {R : Type} (rd : RowReader R) (rs : RSet) : M RSet := do
  let (rs', _) ← collect rd rs
  pure rs'

/-- result_set.rs 99-103 `one`. -/
def one {R : Type} (rd : RowReader R) (rs : RSet) : M (RSet × Option R) := do
  let res ← SM.attempt (next rd rs)
  match res with
  | .ok (rs', r?) => do
    let rs'' ← drain rd rs'
    pure (rs'', r?)
  | .error e => do
    let _ ← drain rd rs
    SM.fail e

/-- result_set.rs 125-134 `finish`. -/
def finish {R : Type} (rd : RowReader R) (rs : RSet) : M OkPacket := do
  match rs.okPacket with
  | some ok => pure ok
  | none => do
    let rs' ← drain rd rs
    match rs'.okPacket with
    | some ok => pure ok
    | none => SM.crash

/-- query.rs 15-21 `query`. -/
def query (sql : Str) : M RSet := do
  executeCommand .query (utf8 sql)
  read

/-- query.rs 23-26 `execute_query`. -/
def executeQuery (sql : Str) : M OkPacket := do
  executeCommand .query (utf8 sql)
  let r ← readResponse
  okOrServerError r

/-- prepared_statement.rs 45-67 `prepare_statement`: both counts have 16 bits. -/
def prepareStatement (sql : Str) : M Prepared := do
  executeCommand .stmtPrepare (utf8 sql)
  let packet ← readPacket
  let c ← SM.get
  match packet with
  | b :: _ =>
    if b = 0x00 then do
      let stmt ← liftP (runP Stmt.deserialize packet)
      skipPackets (stmt.paramsLen.toNat + stmt.columnsLen.toNat)
      pure { id := stmt.id, params := stmt.paramsLen.toNat }
    else if b = 0xFF then do
      let e ← liftP (runP (errPacket c.data.capabilities) packet)
      SM.fail (.server e)
    else SM.fail (.protocol (.unexpectedPacket packet))
  | [] => SM.fail (.protocol (.unexpectedPacket packet))

/-- io.rs 36-39. -/
def sendPieces (id : UInt32) (i : Nat) : List Bytes → M Unit
  | [] => pure ()
  | p :: ps => do
    writeCommand (longDataBytes id (UInt16.ofNat i) p)
    sendPieces id i ps

/-- io.rs 20-44 `send_long_data`. -/
def sendLongData (id : UInt32) : Nat → List Value → M Unit
  | _, [] => pure ()
  | i, v :: vs => do
    sendPieces id i (longDataPieces v)
    sendLongData id (i + 1) vs

/-- prepared_statement.rs 74-80, 89-95. -/
def sendExecute (id : UInt32) (params : List Value) : M Unit := do
  let req ← SM.ofOut (ExecRequest.new id params)
  if req.asLongData then do
    sendLongData id 0 params
    writeCommand req.serialize
  else writeCommand req.serialize

/-- prepared_statement.rs 20-31, 69-82 `query`. -/
def stmtQuery (p : Prepared) (values : List Value) : M RSet := do
  if values.length ≠ p.params then SM.fail (.runtime .parameterCountMismatch)
  else do
    sendExecute p.id values
    read

/-- prepared_statement.rs 33-41, 84-97 `execute`. -/
def stmtExecute (p : Prepared) (values : List Value) : M OkPacket := do
  if values.length ≠ p.params then SM.fail (.runtime .parameterCountMismatch)
  else do
    sendExecute p.id values
    let r ← readResponse
    okOrServerError r

/-- query.rs 59-67, with `as usize` in 65. -/
def limitOf (cols : List Column) (row : List Value) : Out Error (Option Nat) :=
  let i := cols.findIdx (fun col => col.name == "@@max_allowed_packet".toList)
  if i < cols.length then
    match row[i]? with
    | some (.ulong n) => .ok (some (usize n))
    | some v => .err (.protocol (.parse (.wrongValue .ulong v)))
    | none => .panic
  else .ok none

end Narrow
end Verif

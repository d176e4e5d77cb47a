import Verif.Model.Auth
import Verif.Model.MigratorWire
import Verif.Model.Display

/-!
# A build without overflow checks

The rest of the model is that of a build with overflow checks and `debug_assertions` (Cargo's `dev` profile): arithmetic
that leaves its type panics.  In Cargo's `release` profile it wraps.  Here are those functions of /repo in which the
difference can show, as a release build runs them, and the functions that call them.  All other arithmetic in /repo
cannot overflow (sums of lengths of data in memory), is guarded, or panics in both builds.
-/

namespace Verif

/-! ### the greeting -/

/-- handshake.rs 47: `i8::max(13, auth_plugin_data_len as i8 - 8) as usize`, wrapping.  The maximum is not negative. -/
def noncePart2LenRel (len : UInt8) : Nat := (max 13 (len.toInt8 - 8)).toInt.toNat

/-- handshake.rs 46-49. -/
def Handshake.noncePart2Rel (caps : UInt32) (dataLen : UInt8) : P Bytes :=
  if hasFlag32 caps Cap.SECURE_CONNECTION then P.checkedEat (noncePart2LenRel dataLen) else pure []

/-- handshake.rs 28-72, as `Handshake.deserialize`. -/
def Handshake.deserializeRel : P Handshake := do
  let protocolVersion ← P.checkedEatU8
  let serverVersion ← P.eatNullStr
  P.checkLen 31
  let connectionId ← P.eatU32
  let nonce1 ← P.eat 8
  P.skip 1
  let caps1 ← P.eatU16
  let collation ← P.eatU8
  let st ← P.eatU16
  let status ← SM.ofOut ((statusTryFrom st).mapErr fun e => .parse (.unknownBitflags e))
  let caps2 ← P.eatU16
  let dataLen ← P.eatU8
  P.skip 10
  let caps ← SM.ofOut ((capTryFrom (UInt32.ofNat caps1.toNat ||| UInt32.ofNat caps2.toNat <<< 16)).mapErr
    fun e => .parse (.unknownBitflags e))
  let nonce2 ← Handshake.noncePart2Rel caps dataLen
  let plugin ← Handshake.plugin caps
  pure
    { protocolVersion := protocolVersion
      serverVersion := serverVersion
      connectionId := connectionId
      capabilities := caps
      collation := collation
      status := status
      authPluginDataLen := dataLen
      nonce := resize20 (nonce1 ++ nonce2)
      authPlugin := plugin }

/-- init.rs 36-81, as `handleHandshake`. -/
def handleHandshakeRel (alnum : Char → Bool) : M Unit := do
  let packet ← readPacket
  match runP Handshake.deserializeRel packet with
  | .ok hs =>
    match parseServerVersion alnum hs.serverVersion with
    | .ok v => SM.modify fun c => { c with data := connDataOf c.options hs v }
    | _ => SM.crash
  | _ => SM.crash

/-! ### texts of times -/

/-- text.rs 223-224: `microseconds *= 10u32.pow(6 - buf.len() as u32)`, all of it wrapping. -/
def scaleRel (m len : Nat) : Nat := m * 10 ^ ((2 ^ 32 + 6 - len % 2 ^ 32) % 2 ^ 32) % 2 ^ 32

/-- text.rs 203-233, as `timeTextInner`. -/
def timeTextInnerRel (value : Bytes) : Out ProtocolError (UInt32 × UInt8 × UInt8 × UInt8 × UInt32) := do
  let invalid : ProtocolError := .parse (.invalidValue .time value)
  let colon := value.findIdx (· == 0x3A)
  if value.length ≤ colon then .err .eof
  else if value.length < colon + 6 ∨ value[colon + 3]? ≠ some 0x3A then .err invalid
  else do
    let hours ← Out.ofOption invalid (btou 4294967295 (value.take colon))
    let minutes ← Out.ofOption invalid (btou 255 ((value.drop (colon + 1)).take 2))
    let seconds ← Out.ofOption invalid (btou 255 ((value.drop (colon + 4)).take 2))
    let micros ←
      if colon + 7 < value.length then
        if value[colon + 6]? ≠ some 0x2E then .err invalid
        else do
          let buf := value.drop (colon + 7)
          let m ← Out.ofOption invalid (btou 4294967295 buf)
          pure (scaleRel m buf.length)
      else pure 0
    pure (UInt32.ofNat (hours / 24), UInt8.ofNat (hours % 24), UInt8.ofNat minutes,
      UInt8.ofNat seconds, UInt32.ofNat micros)

/-- text.rs 250-265, as `timeText`. -/
def timeTextRel (value : Bytes) : Out ProtocolError Value :=
  match value with
  | [] => .err .eof
  | b :: r => do
    let (days, hours, minutes, seconds, micros) ← timeTextInnerRel (if b = 0x2D then r else value)
    pure (.time (b == 0x2D) days hours minutes seconds micros)

/-- text.rs 272-291, as `datetimeText`. -/
def datetimeTextRel (value : Bytes) : Out ProtocolError Value :=
  if value.length < 19 then .err (.parse (.invalidValue .date value))
  else do
    let (year, month, day) ← dateTextInner (value.take 10)
    let (_, hour, minute, second, micro) ← timeTextInnerRel (value.drop 11)
    pure (.datetime year month day hour minute second micro)

/-- text.rs 308-383, as `textValue`: only three types have a time in them. -/
def textValueRel (fp : FloatParse) (t : ColumnType) (flags : UInt16) (bytes : Bytes) : Out ProtocolError Value :=
  match t with
  | .timestamp | .datetime => datetimeTextRel bytes
  | .time => timeTextRel bytes
  | t => textValue fp t flags bytes

/-- text.rs 293-308, as `deserializeText`. -/
def deserializeTextRel (fp : FloatParse) (t : ColumnType) (flags : UInt16) : P Value := do
  let s ← SM.get
  match s with
  | [] => SM.fail .eof
  | b :: _ =>
    if b = 0xFB then do
      P.skip 1
      pure .null
    else do
      let bytes ← P.checkedEatLenencSlice
      SM.ofOut (textValueRel fp t flags bytes)

/-- protocol.rs 13-28, as `textRowLoop`. -/
def textRowLoopRel (fp : FloatParse) : List Column → P (List Value)
  | [] => pure []
  | c :: cs => do
    let v ← deserializeTextRel fp c.type c.flags
    let vs ← textRowLoopRel fp cs
    pure (v :: vs)

/-- protocol.rs 13-28, as `readTextRow`. -/
def readTextRowRel (fp : FloatParse) (packet : Bytes) (columns : List Column) : Out ProtocolError (List Value) :=
  runP (textRowLoopRel fp columns) packet

/-- rows of the text protocol (protocol.rs 10-29), as `textReader`. -/
def textReaderRel {R : Type} (fp : FloatParse) (mk : List Column → List Value → Out ParseError R) : RowReader R :=
  { row := readTextRowRel fp, build := mk }

/-! ### connecting -/

/-- query.rs 53-67, as `askLimit`. -/
def askLimitRel (fp : FloatParse) : M Unit := do
  let rs ← query "select @@max_allowed_packet".toList
  let (rs', row?) ← rs.next (textReaderRel fp mkPlain)
  match row? with
  | none => pure ()
  | some row => do
    let n ← SM.ofOut (limitOf rs'.columns row)
    storeLimit n

/-- query.rs 51-70, as `readSettings`. -/
def readSettingsRel (fp : FloatParse) : M Unit := do
  let c ← SM.get
  if c.options.maxAllowedPacket.isNone then askLimitRel fp else pure ()

/-- init.rs 18-27, as `login`. -/
def loginRel (cr : Crypto) (alnum : Char → Bool) : M Unit := do
  handleHandshakeRel alnum
  doHandshakeResponse cr
  continueAuth cr 2

/-- init.rs 14-30, as `connect`. -/
def connectRel (cr : Crypto) (alnum : Char → Bool) (fp : FloatParse) : M Unit := do
  loginRel cr alnum
  readSettingsRel fp

/-! ### `Migrator::new` -/

/-- migrator_inner.rs 45-62, as `loadLoop`. -/
def loadLoopRel (fp : FloatParse) (ms : List MigList) :
    Nat → RSet → (Version → List Str) → M (Version → List Str)
  | 0, _, _ => SM.crash
  | fuel + 1, rs, applied => do
    let (rs', k?) ← rs.next (textReaderRel fp migrationOf)
    match k? with
    | none => pure applied
    | some k => if isKnown ms k then loadLoopRel fp ms fuel rs' (insertApplied applied k) else SM.crash

/-- migrator_inner.rs 39-62, as `loadTable`. -/
def loadTableRel (fp : FloatParse) (ms : List MigList) : M (Version → List Str) := do
  let rs ← query selectSql
  let c ← SM.get
  loadLoopRel fp ms (c.rx.length + 2) rs fun _ => []

/-- migrator_inner.rs 24-37, as `ensureTable`. -/
def ensureTableRel (fp : FloatParse) : M Unit := do
  let rs ← query existsSql
  let (_, rows) ← rs.collect (textReaderRel fp mkPlain)
  if rows.isEmpty then do
    let _ ← executeQuery createSql
    pure ()
  else pure ()

/-- migrator_inner.rs 17-68, as `migratorOpen`: the `debug_assert!` of line 21 is not there. -/
def migratorOpenRel (fp : FloatParse) (ms : List MigList) : M (Version → List Str) := do
  ensureTableRel fp
  loadTableRel fp ms

/-! ### writing a value -/

/-- text.rs 133-200, as `display`: `days * 24 + hours` wraps. -/
def displayRel (ff : FloatFmt) : Value → Out Unit Str
  | .time neg days h m s us =>
    .ok (['"'] ++ (if neg then ['-'] else []) ++ formatTime (days * 24 + UInt32.ofNat h.toNat) m s us ++ ['"'])
  | v => display ff v

end Verif

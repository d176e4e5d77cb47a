import Verif.Model.Crypt
import Verif.Model.Query

/-!
# Connecting and authenticating

Mirrors `src/connection/init.rs`, `src/connection/auth.rs`, `src/connection/types/auth_plugin.rs`,
`src/connection/packets/{auth_switch_request,handshake,handshake_response}.rs` and
`ConnectionOptions::get_capabilities`.

Parameters: the cryptographic functions, and which characters `char::is_alphanumeric` accepts.
-/

namespace Verif

/-- the cryptographic functions authentication uses.  Keeping them abstract lets the theorems about
the flow of the password (C28) hold for every choice of them. -/
structure Crypto extends Hashes where
  /-- `PublicKey::encrypt_padded` with a fresh random generator. -/
  rsa : PublicKey → Bytes → Out CryptError Bytes

/-- the functions of the code; `seed` are the 20 random bytes the OAEP padding draws (at most one
padding is made while connecting). -/
def Crypto.real (h : Hashes) (seed : Bytes) : Crypto :=
  { toHashes := h, rsa := PublicKey.encryptPadded h seed }

/-! ### Plugins -/

/-- auth_plugin.rs 9-13, 63-70 `as_bytes`. -/
def AuthPlugin.name : AuthPlugin → Bytes
  | .clear => ascii "mysql_clear_password"
  | .native => ascii "mysql_native_password"
  | .sha2 => ascii "caching_sha2_password"

/-- `match x { [head @ .., 0] => head, all => all }`. -/
def stripNul (bs : Bytes) : Bytes := if bs.getLast? = some 0 then bs.dropLast else bs

/-- auth_plugin.rs 46-61 `from_bytes`. -/
def AuthPlugin.fromBytes (name : Bytes) : Out ProtocolError AuthPlugin :=
  let name := stripNul name
  if name = AuthPlugin.clear.name then .ok .clear
  else if name = AuthPlugin.native.name then .ok .native
  else if name = AuthPlugin.sha2.name then .ok .sha2
  else .err (.unknownAuthPlugin name)

/-- auth_plugin.rs 29-36. -/
def AuthPlugin.deserialize : P AuthPlugin := do
  let name ← P.eatNullSlice
  SM.ofOut (AuthPlugin.fromBytes name)

/-- auth_plugin.rs 38-43. -/
def AuthPlugin.serialize (p : AuthPlugin) : Bytes := p.name ++ [0]

/-- auth_plugin.rs 107-117 `AuthPluginData` (variant `Old` is never made). -/
inductive AuthData where
  | clear (x : Bytes)
  | native (x : Bytes)
  | sha2 (x : Bytes)
  deriving DecidableEq, Repr

/-- auth_plugin.rs 119-130 `Deref`. -/
def AuthData.bytes : AuthData → Bytes
  | .clear x => x
  | .native x => x
  | .sha2 x => x

/-- auth_plugin.rs 132-147 `Serialize`. -/
def AuthData.serialize : AuthData → Bytes
  | .clear x => x ++ [0]
  | .native x => x
  | .sha2 x => x

/-- auth_plugin.rs 77-104 `gen_data`. -/
def AuthPlugin.genData (cr : Crypto) (p : AuthPlugin) (pass nonce : Bytes) (o : Options) :
    Out Error (Option AuthData) :=
  let mismatch : Option AuthPlugin :=
    match o.authPlugin with
    | some f => if p ≠ f then some f else none
    | none => none
  match mismatch with
  | some f => .err (.runtime (.authPluginMismatch f p))
  | none =>
    match p with
    | .clear =>
      if !o.allowCleartext then .err (.runtime .insecureAuth) else .ok (some (.clear pass))
    | .native => .ok ((scrambleNative cr.toHashes nonce pass).map .native)
    | .sha2 => .ok ((scrambleSha256 cr.toHashes nonce pass).map .sha2)

/-! ### Authentication switch -/

/-- auth_switch_request.rs 8-12. -/
structure AuthSwitch where
  plugin : AuthPlugin
  data : Bytes
  deriving DecidableEq, Repr

/-- auth_switch_request.rs 24-38. -/
def AuthSwitch.deserialize : P AuthSwitch := do
  P.skip 1
  let plugin ← AuthPlugin.deserialize
  let data ← P.eatAll
  pure { plugin := plugin, data := stripNul data }

/-! ### Handshake -/

/-- handshake.rs 11-22 (the protocol version, collation and status are not used afterwards). -/
structure Handshake where
  protocolVersion : UInt8
  serverVersion : Str
  connectionId : UInt32
  capabilities : UInt32
  collation : UInt8
  status : UInt16
  authPluginDataLen : UInt8
  nonce : Bytes
  authPlugin : Option AuthPlugin
  deriving DecidableEq, Repr

/-- parse_buf.rs 220-222 `eat_null_str`. -/
def P.eatNullStr : P Str := do
  let s ← P.eatNullSlice
  match fromUtf8 s with
  | some x => pure x
  | none => SM.fail (.parse .utf8)

/-- `Vec::resize(20, 0)`. -/
def resize20 (bs : Bytes) : Bytes := bs.take 20 ++ List.replicate (20 - bs.length) 0

/-- handshake.rs 47: `i8::max(13, auth_plugin_data_len as i8 - 8) as usize`; the subtraction
overflows (a panic) for 128..=135. -/
def noncePart2Len (len : UInt8) : Out ProtocolError Nat :=
  let n := len.toNat
  if n < 128 then .ok (max 13 (n - 8))
  else if n < 136 then .panic
  else .ok 13

/-- handshake.rs 46-49. -/
def Handshake.noncePart2 (caps : UInt32) (dataLen : UInt8) : P Bytes :=
  if hasFlag32 caps Cap.SECURE_CONNECTION then do
    let len ← SM.ofOut (noncePart2Len dataLen)
    P.checkedEat len
  else pure []

/-- handshake.rs 55-59. -/
def Handshake.plugin (caps : UInt32) : P (Option AuthPlugin) :=
  if hasFlag32 caps Cap.PLUGIN_AUTH then do
    let name ← P.eatAll
    let p ← SM.ofOut (AuthPlugin.fromBytes name)
    pure (some p)
  else pure none

/-- handshake.rs 28-72 `HandshakePacket::deserialize`. -/
def Handshake.deserialize : P Handshake := do
  let protocolVersion ← P.checkedEatU8
  let serverVersion ← P.eatNullStr
  P.checkLen 31
  let connectionId ← P.eatU32
  let nonce1 ← P.eat 8
  P.skip 1
  let caps1 ← P.eatU16
  let collation ← P.eatU8
  let st ← P.eatU16
  let status ← SM.ofOut ((statusTryFrom st).mapErr fun e => .parse (.unknownBitflags e))
  let caps2 ← P.eatU16
  let dataLen ← P.eatU8
  P.skip 10
  let caps ← SM.ofOut ((capTryFrom (UInt32.ofNat caps1.toNat ||| UInt32.ofNat caps2.toNat <<< 16)).mapErr
    fun e => .parse (.unknownBitflags e))
  let nonce2 ← Handshake.noncePart2 caps dataLen
  let plugin ← Handshake.plugin caps
  pure
    { protocolVersion := protocolVersion
      serverVersion := serverVersion
      connectionId := connectionId
      capabilities := caps
      collation := collation
      status := status
      authPluginDataLen := dataLen
      nonce := resize20 (nonce1 ++ nonce2)
      authPlugin := plugin }

/-! ### Server version -/

/-- `&s[..i]` and `&s[i..]` for a byte index: `none` (a panic) off a character boundary. -/
def splitAtByte : Str → Nat → Option (Str × Str)
  | s, 0 => some ([], s)
  | [], _ + 1 => none
  | c :: cs, n + 1 =>
    let k := (utf8Char c).length
    if n + 1 < k then none
    else (splitAtByte cs (n + 1 - k)).map fun p => (c :: p.1, p.2)

/-- `from_str` ignores one leading plus sign. -/
def stripPlus : Str → Str
  | '+' :: r => r
  | s => s

/-- `u16::from_str`: an optional plus sign, at least one decimal digit, at most 65535. -/
def u16FromStr (s : Str) : Option UInt16 :=
  let digits := stripPlus s
  if digits = [] ∨ ¬ digits.all (fun c => 48 ≤ c.toNat && c.toNat ≤ 57) then none
  else
    let n := digits.foldl (fun n c => n * 10 + (c.toNat - 48)) 0
    if n < 65536 then some (UInt16.ofNat n) else none

/-- handshake.rs 87-100 `eat_int`: the position counted in characters is used as a byte index. -/
def eatInt (alnum : Char → Bool) (s : Str) : Out Empty (Option UInt16 × Str) :=
  let pos := s.findIdx (fun c => !alnum c)
  if pos < s.length then
    match splitAtByte s pos, splitAtByte s (pos + 1) with
    | some (a, _), some (_, b) => .ok (u16FromStr a, b)
    | _, _ => .panic
  else .ok (u16FromStr s, [])

/-- handshake.rs 85-108 `parse_server_version`. -/
def parseServerVersion (alnum : Char → Bool) (s : Str) :
    Out Empty (Option ((UInt16 × UInt16 × UInt16) × Bool)) :=
  eatInt alnum s >>= fun p1 =>
    match p1.1 with
    | none => .ok none
    | some a => eatInt alnum p1.2 >>= fun p2 =>
      match p2.1 with
      | none => .ok none
      | some b => eatInt alnum p2.2 >>= fun p3 =>
        match p3.1 with
        | none => .ok none
        | some c => .ok (some ((a, b, c), "MariaDB".toList.isPrefixOf p3.2))

/-! ### Connecting -/

/-- options.rs 81-94 `get_capabilities`. -/
def Options.capabilities (o : Options) : UInt32 :=
  let out := Cap.PROTOCOL_41 ||| Cap.SECURE_CONNECTION ||| Cap.TRANSACTIONS |||
    Cap.PS_MULTI_RESULTS ||| Cap.DEPRECATE_EOF ||| Cap.PLUGIN_AUTH
  if o.dbName.isSome then out ||| Cap.CONNECT_WITH_DB else out

/-- init.rs 57-80: the connection data made from a handshake. -/
def connDataOf (o : Options) (hs : Handshake)
    (v : Option ((UInt16 × UInt16 × UInt16) × Bool)) : ConnData :=
  let v := v.getD ((0, 0, 0), false)
  { id := hs.connectionId
    isMariadb := v.2
    version := v.1
    capabilities := hs.capabilities &&& o.capabilities
    nonce := hs.nonce
    serverKey := o.serverKey
    authPlugin := hs.authPlugin.getD .native
    authSwitched := false
    maxAllowedPacket := o.maxAllowedPacket.getD DEFAULT_MAX_ALLOWED_PACKET }

/-- init.rs 36-81 `handle_handshake`; a packet that does not parse is a panic (`unwrap`). -/
def handleHandshake (alnum : Char → Bool) : M Unit := do
  let packet ← readPacket
  match runP Handshake.deserialize packet with
  | .ok hs =>
    match parseServerVersion alnum hs.serverVersion with
    | .ok v => SM.modify fun c => { c with data := connDataOf c.options hs v }
    | _ => SM.crash
  | _ => SM.crash

/-- connection/mod.rs 20-21. -/
def UTF8_GENERAL_CI : UInt8 := 33
def UTF8MB4_GENERAL_CI : UInt8 := 45

/-- `server_version >= (5, 5, 3)`: tuples compare lexicographically. -/
def versionGe553 (v : UInt16 × UInt16 × UInt16) : Bool :=
  let a := v.1.toNat
  let b := v.2.1.toNat
  let c := v.2.2.toNat
  5 < a || (a == 5 && (5 < b || (b == 5 && 3 ≤ c)))

/-- handshake_response.rs 32-66, 68-122: `HandshakeResponse::new` and `serialize` with
`connect_attributes = None` (the only way it is used, init.rs 95). -/
def handshakeResponse (scramble : Bytes) (version : UInt16 × UInt16 × UInt16) (user : Bytes)
    (db : Option Bytes) (plugin : Option AuthPlugin) (caps : UInt32) (maxPacket : UInt32) : Bytes :=
  let caps1 := if db.isSome then caps ||| Cap.CONNECT_WITH_DB else caps &&& ~~~Cap.CONNECT_WITH_DB
  let caps2 := if plugin.isSome then caps1 ||| Cap.PLUGIN_AUTH else caps1 &&& ~~~Cap.PLUGIN_AUTH
  let caps3 := caps2 &&& ~~~Cap.CONNECT_ATTRS
  leBytes 4 caps3.toNat ++ leBytes 4 maxPacket.toNat ++
  [if versionGe553 version then UTF8MB4_GENERAL_CI else UTF8_GENERAL_CI] ++
  List.replicate 23 0 ++ putNullSlice user ++
  (if hasFlag32 caps Cap.PLUGIN_AUTH_LENENC_CLIENT_DATA then putLenencSlice scramble
   else if hasFlag32 caps Cap.SECURE_CONNECTION then putU8Slice scramble
   else putNullSlice scramble) ++
  (match db with
   | some d => putNullSlice d
   | none => []) ++
  (match plugin with
   | some p => p.serialize
   | none => [])

/-- init.rs 83-103 `do_handshake_response` (`max_allowed_packet as u32` cuts off). -/
def doHandshakeResponse (cr : Crypto) : M Unit := do
  let c ← SM.get
  let plugin := c.options.authPlugin.getD c.data.authPlugin
  let data ← SM.ofOut (plugin.genData cr (utf8 c.options.password) c.data.nonce c.options)
  writePacket (handshakeResponse ((data.map AuthData.bytes).getD []) c.data.version
    (utf8 c.options.user) (c.options.dbName.map utf8) (some plugin) c.data.capabilities
    (UInt32.ofNat c.data.maxAllowedPacket))

/-- auth.rs 32-40, 133-141: an error packet if it is one, otherwise "unexpected packet". -/
def authFailure {α : Type} (packet : Bytes) : M α := do
  let c ← SM.get
  match runP (ErrPacket.deserialize c.data.capabilities) packet with
  | .ok e => SM.fail (.server e)
  | .err _ => SM.fail (.protocol (.unexpectedPacket packet))
  | .panic => SM.crash

/-- auth.rs 105-107: `*byte ^= nonce[i % nonce.len()]`; an empty nonce panics (`% 0`), the password
with its terminator is never empty. -/
def xorNonce (pass nonce : Bytes) : Out Error Bytes :=
  if nonce = [] then .panic
  else .ok (xorBytes pass ((List.range pass.length).map fun i => nonce.getD (i % nonce.length) 0))

/-- auth.rs 74-104: the key to encrypt with. -/
def fetchKey : M PublicKey := do
  let c ← SM.get
  match c.data.serverKey with
  | some k => pure k
  | none => do
    writePacket [0x02]
    let packet ← readPacket
    let c ← SM.get
    match packet with
    | [] => SM.fail (.protocol (.unexpectedPacket packet))
    | b :: r =>
      if b = 0x01 then do
        let k ← SM.ofOut ((tryFromPem r).mapErr fun e => .protocol (.serialize (.encryption e)))
        SM.modify fun c => { c with data.serverKey := some k }
        pure k
      else if b = 0xFF then do
        let e ← liftP (runP (ErrPacket.deserialize c.data.capabilities) packet)
        SM.fail (.server e)
      else SM.fail (.protocol (.unexpectedPacket packet))

/-- auth.rs 67-113: send the password, in clear on a secure stream, encrypted otherwise. -/
def sendPassword (cr : Crypto) : M Unit := do
  let c ← SM.get
  let pass := utf8 c.options.password ++ [0]
  if c.options.secure then writePacket pass
  else do
    let key ← fetchKey
    let c ← SM.get
    let x ← SM.ofOut (xorNonce pass c.data.nonce)
    let enc ← SM.ofOut ((cr.rsa key x).mapErr
      fun e => .protocol (.serialize (.encryption e)))
    writePacket enc

/-- auth.rs 114-125: the final answer. -/
def readVerdict : M Unit := do
  let res ← readPacket
  let c ← SM.get
  match res with
  | [] => SM.fail (.protocol (.unexpectedPacket res))
  | b :: _ =>
    if b = 0x00 then pure ()
    else if b = 0xFF then do
      let e ← liftP (runP (ErrPacket.deserialize c.data.capabilities) res)
      SM.fail (.server e)
    else SM.fail (.protocol (.unexpectedPacket res))

/-- auth.rs 66-126: full authentication of the SHA-2 plugin. -/
def fullAuth (cr : Crypto) : M Unit := do
  sendPassword cr
  readVerdict

/-- auth.rs 145-171 `perform_auth_switch` up to the call of `continue_auth`. -/
def switchAuth (cr : Crypto) (sw : AuthSwitch) : M Unit := do
  let c ← SM.get
  if c.data.authSwitched then SM.crash
  else do
    SM.modify fun c =>
      { c with data := { c.data with authSwitched := true, authPlugin := sw.plugin, nonce := sw.data } }
    let c ← SM.get
    let data ← SM.ofOut
      (c.data.authPlugin.genData cr (utf8 c.options.password) c.data.nonce c.options)
    match data with
    | some d => writePacket d.serialize
    | none => writePacket []

/-- auth.rs 11-143 `continue_auth` with its two handlers; `fuel` bounds the number of switches,
running out of it is a panic (shown to be unreachable with two units). -/
def continueAuth (cr : Crypto) : Nat → M Unit
  | 0 => SM.crash
  | fuel + 1 => do
    let c ← SM.get
    let plugin := c.options.authPlugin.getD c.data.authPlugin
    let packet ← readPacket
    let c ← SM.get
    match packet with
    | [] => authFailure packet
    | b :: r =>
      if b = 0x00 then pure ()
      else if b = 0x01 ∧ plugin = .sha2 then
        match r with
        | [] => SM.fail (.protocol (.unexpectedPacket packet))
        | s :: _ =>
          if s = 0x03 then do
            let _ ← readPacket
            pure ()
          else if s = 0x04 then fullAuth cr
          else SM.fail (.protocol (.unexpectedPacket packet))
      else if b = 0xFE ∧ c.data.authSwitched = false then do
        let sw ← liftP (runP AuthSwitch.deserialize packet)
        switchAuth cr sw
        continueAuth cr fuel
      else authFailure packet

/-- the connection as it is before the handshake has been read. -/
def Conn.initial (o : Options) (rx : List Rx) (wf : List (Option (Nat × IoKind))) : Conn :=
  { rx := rx
    tx := []
    wfaults := wf
    seqId := 0
    data :=
      { id := 0
        isMariadb := false
        version := (0, 0, 0)
        capabilities := 0
        nonce := []
        serverKey := none
        authPlugin := .native
        authSwitched := false
        maxAllowedPacket := 0 }
    options := o
    pendingResult := false }

/-- init.rs 18-27: handshake, response and authentication. -/
def login (cr : Crypto) (alnum : Char → Bool) : M Unit := do
  handleHandshake alnum
  doHandshakeResponse cr
  continueAuth cr 2

/-- init.rs 14-30 `connect`, on a stream that has been opened. -/
def connect (cr : Crypto) (alnum : Char → Bool) (fp : FloatParse) : M Unit := do
  login cr alnum
  readSettings fp

end Verif

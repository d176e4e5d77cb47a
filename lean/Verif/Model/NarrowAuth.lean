import Verif.Model.Auth
import Verif.Model.Narrow

/-!
# Connecting on a target with addresses of 32 bits

The functions of `src/connection/auth.rs`, `init.rs` and `query.rs` that reach a conversion to `usize`, in a debug build.
The handshake and the messages of the plugins contain no length of more than 8 bits, what reads and writes them is used as
it is in `Verif.Model.Auth`.  `options.max_allowed_packet` is a `usize` itself.
-/

namespace Verif.Narrow

/-- crypt.rs 214-246 `pad`. -/
def oaepPad (h : Hashes) (seed : Bytes) (data : Bytes) (n : Nat) : Out CryptError Bytes :=
  if n < 1 + HASH_LEN + HASH_LEN + 2 + 1 + data.length then .err .messageTooLong
  else
    let msgLen := n - HASH_LEN - 1
    let fillingLen := msgLen - data.length
    let msg := h.sha1 [] ++ List.replicate (fillingLen - 1 - HASH_LEN) 0 ++ [1] ++ data
    mgf1 h seed msg.length >>= fun msgMask =>
      let msg := xorBytes msg msgMask
      mgf1 h msg HASH_LEN >>= fun seedMask =>
        .ok (0 :: xorBytes seed seedMask ++ msg)

/-- crypt.rs 141-157 `encrypt_padded`. -/
def encryptPadded (h : Hashes) (seed : Bytes) (k : PublicKey) (data : Bytes) : Out CryptError Bytes :=
  numOctets true k >>= fun octets =>
    oaepPad h seed data octets >>= fun padded =>
      if k.modulus = 0 then .panic
      else
        let encrypted := toBytesBe (beNat padded ^ k.exponent % k.modulus)
        if octets < encrypted.length then .panic
        else .ok (List.replicate (octets - encrypted.length) 0 ++ encrypted)

/-- the functions of the code, on this target. -/
def crypto (h : Hashes) (seed : Bytes) : Crypto := { toHashes := h, rsa := encryptPadded h seed }

/-- auth.rs 32-40, 133-141. -/
def authFailure {α : Type} (packet : Bytes) : M α := do
  let c ← SM.get
  match runP (errPacket c.data.capabilities) packet with
  | .ok e => SM.fail (.server e)
  | .err _ => SM.fail (.protocol (.unexpectedPacket packet))
  | .panic => SM.crash

/-- auth.rs 74-104: the key to encrypt with. -/
def fetchKey : M PublicKey := do
  let c ← SM.get
  match c.data.serverKey with
  | some k => pure k
  | none => do
    writePacket [0x02]
    let packet ← readPacket
    let c ← SM.get
    match packet with
    | [] => SM.fail (.protocol (.unexpectedPacket packet))
    | b :: r =>
      if b = 0x01 then do
        let k ← SM.ofOut ((tryFromPem r).mapErr fun e => .protocol (.serialize (.encryption e)))
        SM.modify fun c => { c with data.serverKey := some k }
        pure k
      else if b = 0xFF then do
        let e ← liftP (runP (errPacket c.data.capabilities) packet)
        SM.fail (.server e)
      else SM.fail (.protocol (.unexpectedPacket packet))

/-- auth.rs 67-113. -/
def sendPassword (cr : Crypto) : M Unit := do
  let c ← SM.get
  let pass := utf8 c.options.password ++ [0]
  if c.options.secure then writePacket pass
  else do
    let key ← fetchKey
    let c ← SM.get
    let x ← SM.ofOut (xorNonce pass c.data.nonce)
    let enc ← SM.ofOut ((cr.rsa key x).mapErr
      fun e => .protocol (.serialize (.encryption e)))
    writePacket enc

/-- auth.rs 114-125. -/
def readVerdict : M Unit := do
  let res ← readPacket
  let c ← SM.get
  match res with
  | [] => SM.fail (.protocol (.unexpectedPacket res))
  | b :: _ =>
    if b = 0x00 then pure ()
    else if b = 0xFF then do
      let e ← liftP (runP (errPacket c.data.capabilities) res)
      SM.fail (.server e)
    else SM.fail (.protocol (.unexpectedPacket res))

/-- auth.rs 66-126. -/
def fullAuth (cr : Crypto) : M Unit := do
  sendPassword cr
  readVerdict

/-- auth.rs 11-143 `continue_auth`. -/
def continueAuth (cr : Crypto) : Nat → M Unit
  | 0 => SM.crash
  | fuel + 1 => do
    let c ← SM.get
    let plugin := c.options.authPlugin.getD c.data.authPlugin
    let packet ← readPacket
    let c ← SM.get
    match packet with
    | [] => authFailure packet
    | b :: r =>
      if b = 0x00 then pure ()
      else if b = 0x01 ∧ plugin = .sha2 then
        match r with
        | [] => SM.fail (.protocol (.unexpectedPacket packet))
        | s :: _ =>
          if s = 0x03 then do
            let _ ← readPacket
            pure ()
          else if s = 0x04 then fullAuth cr
          else SM.fail (.protocol (.unexpectedPacket packet))
      else if b = 0xFE ∧ c.data.authSwitched = false then do
        let sw ← liftP (runP AuthSwitch.deserialize packet)
        switchAuth cr sw
        continueAuth cr fuel
      else authFailure packet

/-- init.rs 18-27. -/
def login (cr : Crypto) (alnum : Char → Bool) : M Unit := do
  handleHandshake alnum
  doHandshakeResponse cr
  continueAuth cr 2

/-- query.rs 53-67. -/
def askLimit (fp : FloatParse) : M Unit := do
  let rs ← query "select @@max_allowed_packet".toList
  let (rs', row?) ← next (textReader fp mkPlain) rs
  match row? with
  | none => pure ()
  | some row => do
    let n ← SM.ofOut (limitOf rs'.columns row)
    storeLimit n

/-- query.rs 51-70 `read_settings`. -/
def readSettings (fp : FloatParse) : M Unit := do
  let c ← SM.get
  if c.options.maxAllowedPacket.isNone then askLimit fp else pure ()

/-- init.rs 14-30 `connect`, on a stream that has been opened. -/
def connect (cr : Crypto) (alnum : Char → Bool) (fp : FloatParse) : M Unit := do
  login cr alnum
  readSettings fp

end Verif.Narrow

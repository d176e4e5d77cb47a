import Verif.Model.Auth

/-!
# Builds with fewer features

Cargo.toml 22-27: the features `caching-sha2-password` and `time` are on by default and can be turned off. The rest of the
model is the default build; here are the functions that are compiled differently (`#[cfg(feature = …)]`), as functions of
the build. (`tcpstream` adds one stream type, `serde` the conversions of C89; neither changes another function.)

A build without `caching-sha2-password` has neither the variant `AuthPlugin::Sha2` nor the field `server_key`; here they
are values that nothing makes.
-/

namespace Verif

/-- the features that are on. -/
structure Build where
  sha2 : Bool
  time : Bool
  deriving DecidableEq, Repr

/-- Cargo.toml 20: the default features. -/
def Build.full : Build := { sha2 := true, time := true }

/-- auth_plugin.rs 46-61 `from_bytes`: the arm of lines 55-56 is compiled with the feature only. -/
def AuthPlugin.fromBytesIn (b : Build) (name : Bytes) : Out ProtocolError AuthPlugin :=
  let name := stripNul name
  if name = AuthPlugin.clear.name then .ok .clear
  else if name = AuthPlugin.native.name then .ok .native
  else if b.sha2 = true ∧ name = AuthPlugin.sha2.name then .ok .sha2
  else .err (.unknownAuthPlugin name)

/-- auth_plugin.rs 29-36. -/
def AuthPlugin.deserializeIn (b : Build) : P AuthPlugin := do
  let name ← P.eatNullSlice
  SM.ofOut (AuthPlugin.fromBytesIn b name)

/-- auth_switch_request.rs 24-38, as `AuthSwitch.deserialize`. -/
def AuthSwitch.deserializeIn (b : Build) : P AuthSwitch := do
  P.skip 1
  let plugin ← AuthPlugin.deserializeIn b
  let data ← P.eatAll
  pure { plugin := plugin, data := stripNul data }

/-- handshake.rs 55-59. -/
def Handshake.pluginIn (b : Build) (caps : UInt32) : P (Option AuthPlugin) :=
  if hasFlag32 caps Cap.PLUGIN_AUTH then do
    let name ← P.eatAll
    let p ← SM.ofOut (AuthPlugin.fromBytesIn b name)
    pure (some p)
  else pure none

/-- handshake.rs 28-72, as `Handshake.deserialize`. -/
def Handshake.deserializeIn (b : Build) : P Handshake := do
  let protocolVersion ← P.checkedEatU8
  let serverVersion ← P.eatNullStr
  P.checkLen 31
  let connectionId ← P.eatU32
  let nonce1 ← P.eat 8
  P.skip 1
  let caps1 ← P.eatU16
  let collation ← P.eatU8
  let st ← P.eatU16
  let status ← SM.ofOut ((statusTryFrom st).mapErr fun e => .parse (.unknownBitflags e))
  let caps2 ← P.eatU16
  let dataLen ← P.eatU8
  P.skip 10
  let caps ← SM.ofOut ((capTryFrom (UInt32.ofNat caps1.toNat ||| UInt32.ofNat caps2.toNat <<< 16)).mapErr
    fun e => .parse (.unknownBitflags e))
  let nonce2 ← Handshake.noncePart2 caps dataLen
  let plugin ← Handshake.pluginIn b caps
  pure
    { protocolVersion := protocolVersion
      serverVersion := serverVersion
      connectionId := connectionId
      capabilities := caps
      collation := collation
      status := status
      authPluginDataLen := dataLen
      nonce := resize20 (nonce1 ++ nonce2)
      authPlugin := plugin }

/-- init.rs 36-81 `handle_handshake`; without the feature `time` the user has to provide `sleep` (45-51), and its absence
is a panic before anything is read. -/
def handleHandshakeIn (b : Build) (sleep : Bool) (alnum : Char → Bool) : M Unit :=
  if b.time = false ∧ sleep = false then SM.crash
  else do
    let packet ← readPacket
    match runP (Handshake.deserializeIn b) packet with
    | .ok hs =>
      match parseServerVersion alnum hs.serverVersion with
      | .ok v => SM.modify fun c => { c with data := connDataOf c.options hs v }
      | _ => SM.crash
    | _ => SM.crash

/-- auth.rs 12-143 `continue_auth`: the arm of lines 16-17 and the function of lines 44-143 are compiled with the feature
only, so that otherwise every plugin is handled by lines 24-42. -/
def continueAuthIn (b : Build) (cr : Crypto) : Nat → M Unit
  | 0 => SM.crash
  | fuel + 1 => do
    let c ← SM.get
    let plugin := c.options.authPlugin.getD c.data.authPlugin
    let packet ← readPacket
    let c ← SM.get
    match packet with
    | [] => authFailure packet
    | x :: r =>
      if x = 0x00 then pure ()
      else if x = 0x01 ∧ b.sha2 = true ∧ plugin = .sha2 then
        match r with
        | [] => SM.fail (.protocol (.unexpectedPacket packet))
        | s :: _ =>
          if s = 0x03 then do
            let _ ← readPacket
            pure ()
          else if s = 0x04 then fullAuth cr
          else SM.fail (.protocol (.unexpectedPacket packet))
      else if x = 0xFE ∧ c.data.authSwitched = false then do
        let sw ← liftP (runP (AuthSwitch.deserializeIn b) packet)
        switchAuth cr sw
        continueAuthIn b cr fuel
      else authFailure packet

/-- init.rs 18-27. -/
def loginIn (b : Build) (sleep : Bool) (cr : Crypto) (alnum : Char → Bool) : M Unit := do
  handleHandshakeIn b sleep alnum
  doHandshakeResponse cr
  continueAuthIn b cr 2

/-- init.rs 14-30 `connect`, on a stream that has been opened. -/
def connectIn (b : Build) (sleep : Bool) (cr : Crypto) (alnum : Char → Bool) (fp : FloatParse) : M Unit := do
  loginIn b sleep cr alnum
  readSettings fp

/-- options.rs 97-118 `Default for ConnectionOptions`, on a stream type of this kind (`sleep` is `None` there). -/
def Options.defaultIn (b : Build) (secure : Bool) : Options :=
  { user := []
    password := []
    dbName := none
    maxAllowedPacket := none
    allowCleartext := false
    authPlugin := if b.sha2 then some .sha2 else none
    serverKey := none
    secure := secure }

end Verif

import Verif.Model.Auth

/-!
# Packet code that nothing calls yet

Mirrors the parts of `src/connection/packets/` and `src/connection/types/ints.rs` that are written out
in the crate but not used by it: connection attributes in the login request, writing a request to
switch the authentication plugin, the end-of-rows packet of old servers, halves of integers.
-/

namespace Verif

/-- handshake_response.rs 53-64: the total length, then names and values.  `attrs` is what the
`HashMap` iterates over, in the order in which it does (twice the same, as it is not changed). -/
def putAttrs (attrs : List (Str × Str)) : Bytes :=
  putLenencInt (UInt64.ofNat
    (attrs.map fun a => lenencSliceLen (utf8 a.1) + lenencSliceLen (utf8 a.2)).sum) ++
  attrs.flatMap fun a => putLenencSlice (utf8 a.1) ++ putLenencSlice (utf8 a.2)

/-- handshake_response.rs 32-66, 68-122: `HandshakeResponse::new` and `serialize` with all their
arguments (`handshakeResponse` is the case without attributes, the one that is used). -/
def handshakeResponseWith (scramble : Bytes) (version : UInt16 × UInt16 × UInt16) (user : Bytes)
    (db : Option Bytes) (plugin : Option AuthPlugin) (caps : UInt32)
    (attrs : Option (List (Str × Str))) (maxPacket : UInt32) : Bytes :=
  let caps1 := if db.isSome then caps ||| Cap.CONNECT_WITH_DB else caps &&& ~~~Cap.CONNECT_WITH_DB
  let caps2 := if plugin.isSome then caps1 ||| Cap.PLUGIN_AUTH else caps1 &&& ~~~Cap.PLUGIN_AUTH
  let caps3 := if attrs.isSome then caps2 ||| Cap.CONNECT_ATTRS else caps2 &&& ~~~Cap.CONNECT_ATTRS
  leBytes 4 caps3.toNat ++ leBytes 4 maxPacket.toNat ++
  [if versionGe553 version then UTF8MB4_GENERAL_CI else UTF8_GENERAL_CI] ++
  List.replicate 23 0 ++ putNullSlice user ++
  (if hasFlag32 caps Cap.PLUGIN_AUTH_LENENC_CLIENT_DATA then putLenencSlice scramble
   else if hasFlag32 caps Cap.SECURE_CONNECTION then putU8Slice scramble
   else putNullSlice scramble) ++
  db.elim [] putNullSlice ++ plugin.elim [] AuthPlugin.serialize ++ attrs.elim [] putAttrs

/-- auth_switch_request.rs 40-46. -/
def AuthSwitch.serialize (r : AuthSwitch) : Bytes := 0 :: (r.plugin.serialize ++ r.data)

/-- ok.rs 118-135 `read_old_eof`: the packet marker is not skipped. -/
def OkPacket.readOldEof : P OkPacket := do
  let warnings ← P.checkedEatU16
  let status ← P.checkedEatU16
  pure { affectedRows := 0, lastInsertId := 0, status := statusTruncate status, warnings := warnings,
         message := none, sessionStateInfo := none }

/-- ints.rs 15-17 `serialize_upper`. -/
def serializeUpper (x : UInt32) : Bytes := leBytes 2 (UInt16.ofNat (x >>> 16).toNat).toNat

/-- ints.rs 19-21 `serialize_lower`. -/
def serializeLower (x : UInt32) : Bytes := leBytes 2 (UInt16.ofNat (x &&& 0x0000FFFF).toNat).toNat

/-- ints.rs 23-25 `deserialize_upper`. -/
def deserializeUpper : P UInt32 := do return UInt32.ofNat (← P.eatU16).toNat <<< 16

/-- ints.rs 27-29 `deserialize_lower`. -/
def deserializeLower : P UInt32 := do return UInt32.ofNat (← P.eatU16).toNat

/-! ### readers that panic -/

/-- parse_buf.rs 175-177 `eat_lenenc_str`. -/
def P.eatLenencStr : P Str := do
  let s ← P.eatLenencSlice
  match fromUtf8 s with
  | some x => pure x
  | none => SM.fail (.parse .utf8)

/-- parse_buf.rs 188-191 `eat_u8_slice`. -/
def P.eatU8Slice : P Bytes := do
  let len ← P.eatU8
  P.eat len.toNat

/-- parse_buf.rs 193-195 `eat_u8_str`. -/
def P.eatU8Str : P Str := do
  let s ← P.eatU8Slice
  match fromUtf8 s with
  | some x => pure x
  | none => SM.fail (.parse .utf8)

end Verif

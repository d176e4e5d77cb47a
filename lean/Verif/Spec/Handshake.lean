import Verif.Spec.Text

/-!
# The server's side of connecting: greeting (`HandshakeV10`) and login request
(`HandshakeResponse41`)

Written from the protocol documentation; capability words are numbers, flag `i` is their bit `i`.
-/

namespace Verif.Spec

/-- the three supported plugins by their names on the wire. -/
def pluginName : AuthPlugin → Bytes
  | .clear => "mysql_clear_password".toList.map fun c => UInt8.ofNat c.toNat
  | .native => "mysql_native_password".toList.map fun c => UInt8.ofNat c.toNat
  | .sha2 => "caching_sha2_password".toList.map fun c => UInt8.ofNat c.toNat

/-- decimal numeral as text. -/
def decText (n : Nat) : Str :=
  if n < 10 then [Char.ofNat (48 + n)] else decText (n / 10) ++ [Char.ofNat (48 + n % 10)]

/-- `CLIENT_CONNECT_WITH_DB`, `CLIENT_PROTOCOL_41`, `CLIENT_TRANSACTIONS`, `CLIENT_RESERVED2`
(secure connection), `CLIENT_PS_MULTI_RESULTS`, `CLIENT_PLUGIN_AUTH`, `CLIENT_CONNECT_ATTRS`,
`CLIENT_PLUGIN_AUTH_LENENC_CLIENT_DATA`, `CLIENT_DEPRECATE_EOF`. -/
def bitConnectWithDb : Nat := 3
def bitProtocol41 : Nat := 9
def bitTransactions : Nat := 13
def bitSecure : Nat := 15
def bitPsMultiResults : Nat := 18
def bitPluginAuth : Nat := 19
def bitConnectAttrs : Nat := 20
def bitLenencAuth : Nat := 21
def bitDeprecateEof : Nat := 24

/-- what a server says first. -/
structure Greeting where
  protocol : UInt8
  version : Str
  id : UInt32
  /-- the first eight bytes of the challenge -/
  part1 : Bytes
  caps : UInt32
  collation : UInt8
  status : UInt16
  dataLen : UInt8
  /-- the rest of the challenge with its terminator, present with a secure connection -/
  part2 : Bytes
  /-- present with plugin authentication -/
  plugin : AuthPlugin

def Greeting.encode (g : Greeting) : Bytes :=
  [g.protocol] ++ utf8 g.version ++ [0] ++ le 4 g.id.toNat ++ g.part1 ++ [0] ++
  le 2 (g.caps.toNat % 65536) ++ [g.collation] ++ le 2 g.status.toNat ++
  le 2 (g.caps.toNat / 65536) ++ [g.dataLen] ++ List.replicate 10 0 ++
  (if g.caps.toNat.testBit bitSecure then g.part2 else []) ++
  (if g.caps.toNat.testBit bitPluginAuth then pluginName g.plugin ++ [0] else [])

structure Greeting.WellFormed (g : Greeting) : Prop where
  version : ∀ b ∈ utf8 g.version, b ≠ 0
  part1 : g.part1.length = 8
  part2 : g.caps.toNat.testBit bitSecure = true → g.part2.length = max 13 (g.dataLen.toNat - 8)

/-- the challenge: 20 bytes, filled with zeros if the server sent only the first part. -/
def Greeting.challenge (g : Greeting) : Bytes :=
  if g.caps.toNat.testBit bitSecure then (g.part1 ++ g.part2).take 20
  else g.part1 ++ List.replicate 12 0

/-- The capability word in a greeting, by position: after the protocol byte and the version with its
terminator come the connection id (4), the first part of the challenge (8), a filler, the low half
(2), collation (1), status (2) and the high half (2). -/
def offered (packet : Bytes) : Nat :=
  let body := (packet.drop 1).drop ((packet.drop 1).findIdx (· == 0) + 1)
  let byte := fun i => (body.getD i 0).toNat
  byte 13 + 256 * byte 14 + 65536 * byte 18 + 16777216 * byte 19

/-- the flags the connector implements. -/
def implemented (db : Bool) (i : Nat) : Bool :=
  i ∈ [bitProtocol41, bitSecure, bitTransactions, bitPsMultiResults, bitDeprecateEof, bitPluginAuth] ||
    (db && i == bitConnectWithDb)

/-- what the server understands of a login request. -/
structure Login where
  caps : Nat
  maxPacket : Nat
  collation : UInt8
  user : Bytes
  auth : Bytes
  database : Option Bytes
  plugin : Option Bytes
  deriving DecidableEq

/-- a length byte and so many bytes. -/
def readU8Str : Bytes → Option (Bytes × Bytes)
  | [] => none
  | n :: r => readN n.toNat r

/-- the answer, in the form the flags announce. -/
def readAuth (caps : Nat) (r : Bytes) : Option (Bytes × Bytes) :=
  if caps.testBit bitLenencAuth then readLenencStr r
  else if caps.testBit bitSecure then readU8Str r
  else readNul r

/-- a field that is there only if a flag says so. -/
def readOptNul (present : Bool) (r : Bytes) : Option (Option Bytes × Bytes) :=
  if present then (readNul r).map fun p => (some p.1, p.2) else some (none, r)

/-- `HandshakeResponse41`, field presence by the flags of the packet itself; nothing may be left
over (connection attributes are not understood here). -/
def readLogin (bs : Bytes) : Option Login := do
  let (caps, r) ← readInt 4 bs
  let (maxPacket, r) ← readInt 4 r
  let (coll, r) ← readN 1 r
  let (_, r) ← readN 23 r
  let (user, r) ← readNul r
  let (auth, r) ← readAuth caps r
  let (db, r) ← readOptNul (caps.testBit bitConnectWithDb) r
  let (plugin, r) ← readOptNul (caps.testBit bitPluginAuth) r
  if caps.testBit bitConnectAttrs || r ≠ [] then none
  else
    pure { caps := caps, maxPacket := maxPacket, collation := coll.headD 0, user := user,
           auth := auth, database := db, plugin := plugin }

end Verif.Spec

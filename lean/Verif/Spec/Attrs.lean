import Verif.Spec.Handshake

/-!
# Connection attributes

`HandshakeResponse41` with the last optional field: the attributes of the connection, announced by a
flag, their total length as `int<lenenc>` first, then pairs of `string<lenenc>` up to that length.
-/

namespace Verif.Spec

/-- pairs of names and values, up to the end; `fuel` bounds their number. -/
def readPairs : Nat → Bytes → Option (List (Bytes × Bytes))
  | _, [] => some []
  | 0, _ :: _ => none
  | fuel + 1, b :: r => do
    let (name, r1) ← readLenencStr (b :: r)
    let (value, r2) ← readLenencStr r1
    let rest ← readPairs fuel r2
    pure ((name, value) :: rest)

/-- the field; a pair has at least two bytes, so its length bounds the number of pairs. -/
def readAttrs (present : Bool) (r : Bytes) : Option (Option (List (Bytes × Bytes)) × Bytes) :=
  if present then do
    let (block, rest) ← readLenencStr r
    let pairs ← readPairs block.length block
    pure (some pairs, rest)
  else some (none, r)

/-- a login request with everything it may contain; nothing may be left over. -/
def readLoginFull (bs : Bytes) : Option (Login × Option (List (Bytes × Bytes))) := do
  let (caps, r) ← readInt 4 bs
  let (maxPacket, r) ← readInt 4 r
  let (coll, r) ← readN 1 r
  let (_, r) ← readN 23 r
  let (user, r) ← readNul r
  let (auth, r) ← readAuth caps r
  let (db, r) ← readOptNul (caps.testBit bitConnectWithDb) r
  let (plugin, r) ← readOptNul (caps.testBit bitPluginAuth) r
  let (attrs, r) ← readAttrs (caps.testBit bitConnectAttrs) r
  if r ≠ [] then none
  else
    pure ({ caps := caps, maxPacket := maxPacket, collation := coll.headD 0, user := user,
            auth := auth, database := db, plugin := plugin }, attrs)

end Verif.Spec

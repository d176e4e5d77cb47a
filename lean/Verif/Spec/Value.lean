import Verif.Spec.Wire
import Verif.Model.Types

/-!
# Spec: values in the binary protocol

"Binary Protocol Value" of the MySQL documentation, with type codes as numbers.
`Datum` is what a value *means*, independently of the connector's representation.
-/

namespace Verif.Spec

/-- a value as the server understands it. -/
inductive Datum where
  | null
  | int (width : Nat) (unsigned : Bool) (v : Int)
  | float (bits : Nat)
  | double (bits : Nat)
  | str (b : Bytes)
  | date (year month day : Nat)
  | datetime (year month day hour minute second micro : Nat)
  | time (neg : Bool) (days hours minutes seconds micro : Nat)
  deriving DecidableEq, Repr

/-- a TIME; there is no negative zero. -/
def mkTime (neg : Bool) (days hours minutes seconds micro : Nat) : Datum :=
  .time (neg && !(days + hours + minutes + seconds + micro == 0)) days hours minutes seconds micro

/-- what a value of the connector means. -/
def meaning : Value → Datum
  | .null => .null
  | .tiny x => .int 1 false x.toInt
  | .short x => .int 2 false x.toInt
  | .int x => .int 4 false x.toInt
  | .long x => .int 8 false x.toInt
  | .utiny x => .int 1 true x.toNat
  | .ushort x => .int 2 true x.toNat
  | .uint x => .int 4 true x.toNat
  | .ulong x => .int 8 true x.toNat
  | .float b => .float b.toNat
  | .double b => .double b.toNat
  | .bytes b => .str b
  | .date y m d => .date y.toNat m.toNat d.toNat
  | .datetime y mo d h mi s us =>
    .datetime y.toNat mo.toNat d.toNat h.toNat mi.toNat s.toNat us.toNat
  | .time neg d h m s us =>
    mkTime neg d.toNat h.toNat m.toNat s.toNat us.toNat

/-- two's complement of a `k`-byte number. -/
def signed (k n : Nat) : Int := if n < 2 ^ (8 * k - 1) then (n : Int) else (n : Int) - 2 ^ (8 * k)

/-- integer of `k` bytes. -/
def readNum (k : Nat) (unsigned : Bool) (bs : Bytes) : Option (Datum × Bytes) := do
  let (n, r) ← readInt k bs
  return (.int k unsigned (if unsigned then (n : Int) else signed k n), r)

/-- year, month, day. -/
def readYmd (bs : Bytes) : Option ((Nat × Nat × Nat) × Bytes) := do
  let (y, bs) ← readInt 2 bs
  let (m, bs) ← readInt 1 bs
  let (d, bs) ← readInt 1 bs
  return ((y, m, d), bs)

/-- hour, minute, second. -/
def readHms (bs : Bytes) : Option ((Nat × Nat × Nat) × Bytes) := do
  let (h, bs) ← readInt 1 bs
  let (m, bs) ← readInt 1 bs
  let (s, bs) ← readInt 1 bs
  return ((h, m, s), bs)

/-- MYSQL_TYPE_DATE: length 0 or 4. -/
def readDate (bs : Bytes) : Option (Datum × Bytes) := do
  let (len, bs) ← readInt 1 bs
  if len = 0 then return (.date 0 0 0, bs)
  else if len = 4 then
    let ((y, m, d), bs) ← readYmd bs
    return (.date y m d, bs)
  else none

/-- MYSQL_TYPE_DATETIME / TIMESTAMP: length 0, 4, 7 or 11. -/
def readDatetime (bs : Bytes) : Option (Datum × Bytes) := do
  let (len, bs) ← readInt 1 bs
  if len = 0 then return (.datetime 0 0 0 0 0 0 0, bs)
  else if len = 4 then
    let ((y, m, d), bs) ← readYmd bs
    return (.datetime y m d 0 0 0 0, bs)
  else if len = 7 then
    let ((y, m, d), bs) ← readYmd bs
    let ((h, mi, s), bs) ← readHms bs
    return (.datetime y m d h mi s 0, bs)
  else if len = 11 then
    let ((y, m, d), bs) ← readYmd bs
    let ((h, mi, s), bs) ← readHms bs
    let (us, bs) ← readInt 4 bs
    return (.datetime y m d h mi s us, bs)
  else none

/-- MYSQL_TYPE_TIME: length 0, 8 or 12; the first byte is 1 if negative. -/
def readTime (bs : Bytes) : Option (Datum × Bytes) := do
  let (len, bs) ← readInt 1 bs
  if len = 0 then return (.time false 0 0 0 0 0, bs)
  else if len = 8 then
    let (neg, bs) ← readInt 1 bs
    let (days, bs) ← readInt 4 bs
    let ((h, m, s), bs) ← readHms bs
    if neg ≤ 1 then return (mkTime (neg == 1) days h m s 0, bs) else none
  else if len = 12 then
    let (neg, bs) ← readInt 1 bs
    let (days, bs) ← readInt 4 bs
    let ((h, m, s), bs) ← readHms bs
    let (us, bs) ← readInt 4 bs
    if neg ≤ 1 then return (mkTime (neg == 1) days h m s us, bs) else none
  else none

/-- type codes whose binary form is a `string<lenenc>`: DECIMAL 0, VARCHAR 15, BIT 16, JSON 245,
NEWDECIMAL 246, ENUM 247, SET 248, the four BLOBs 249-252, VAR_STRING 253, STRING 254,
GEOMETRY 255. -/
def isStringType (code : Nat) : Bool :=
  code == 0 || code == 15 || code == 16 || (245 ≤ code && code ≤ 255)

/-- a reader of one non-NULL value of the given type. -/
def readBin (code : Nat) (unsigned : Bool) (bs : Bytes) : Option (Datum × Bytes) :=
  if code = 1 then readNum 1 unsigned bs
  else if code = 2 ∨ code = 13 then readNum 2 unsigned bs
  else if code = 3 ∨ code = 9 then readNum 4 unsigned bs
  else if code = 8 then readNum 8 unsigned bs
  else if code = 4 then (readInt 4 bs).map fun p => (.float p.1, p.2)
  else if code = 5 then (readInt 8 bs).map fun p => (.double p.1, p.2)
  else if code = 6 then some (.null, bs)
  else if code = 10 then readDate bs
  else if code = 7 ∨ code = 12 then readDatetime bs
  else if code = 11 then readTime bs
  else if isStringType code then (readLenencStr bs).map fun p => (.str p.1, p.2)
  else none

/-- is bit `i` (counted from the least significant bit of the first byte) set? -/
def bitSet (bitmap : Bytes) (i : Nat) : Bool :=
  match bitmap[i / 8]? with
  | some b => b.toNat / 2 ^ (i % 8) % 2 == 1
  | none => false

/-! ### COM_STMT_EXECUTE as the server reads it -/

structure Execute where
  stmtId : Nat
  cursorType : Nat
  iterations : Nat
  params : List Datum
  deriving DecidableEq, Repr

/-- `n` pairs (type code, flags), flag 0x80 = unsigned. -/
def readTypes : Nat → Bytes → Option (List (Nat × Bool) × Bytes)
  | 0, bs => some ([], bs)
  | n + 1, bs => do
    let (code, bs) ← readInt 1 bs
    let (flag, bs) ← readInt 1 bs
    let (ts, bs) ← readTypes n bs
    return ((code, flag / 128 % 2 == 1) :: ts, bs)

/-- the parameter values from index `i` on: long data already received replaces the value, a set
NULL bit means NULL, everything else is in the packet. -/
def readParams (bitmap : Bytes) (long : Nat → Option Bytes) :
    Nat → List (Nat × Bool) → Bytes → Option (List Datum × Bytes)
  | _, [], bs => some ([], bs)
  | i, (code, uns) :: ts, bs =>
    match long i with
    | some d => do
      let (ds, bs) ← readParams bitmap long (i + 1) ts bs
      return (.str d :: ds, bs)
    | none =>
      if bitSet bitmap i then do
        let (ds, bs) ← readParams bitmap long (i + 1) ts bs
        return (.null :: ds, bs)
      else do
        let (d, bs) ← readBin code uns bs
        let (ds, bs) ← readParams bitmap long (i + 1) ts bs
        return (d :: ds, bs)

/-- the whole packet; `n` = number of parameters of the statement, `long i` = data received before
by COM_STMT_SEND_LONG_DATA.  Nothing may be left over. -/
def readExecute (n : Nat) (long : Nat → Option Bytes) (bs : Bytes) : Option Execute := do
  let (cmd, bs) ← readInt 1 bs
  if cmd ≠ 0x17 then none
  let (id, bs) ← readInt 4 bs
  let (cur, bs) ← readInt 1 bs
  let (it, bs) ← readInt 4 bs
  if n = 0 then
    if bs.isEmpty then return { stmtId := id, cursorType := cur, iterations := it, params := [] }
    else none
  else
    let (bitmap, bs) ← readN ((n + 7) / 8) bs
    let (bound, bs) ← readInt 1 bs
    if bound ≠ 1 then none
    let (types, bs) ← readTypes n bs
    let (params, bs) ← readParams bitmap long 0 types bs
    if bs.isEmpty then
      return { stmtId := id, cursorType := cur, iterations := it, params := params }
    else none

/-! ### Binary result rows -/

/-- values of a row: column types (code, unsigned), NULL bits start at bit 2. -/
def readRowValues (bitmap : Bytes) : Nat → List (Nat × Bool) → Bytes → Option (List Datum × Bytes)
  | _, [], bs => some ([], bs)
  | i, (code, uns) :: ts, bs =>
    if bitSet bitmap (i + 2) then do
      let (ds, bs) ← readRowValues bitmap (i + 1) ts bs
      return (.null :: ds, bs)
    else do
      let (d, bs) ← readBin code uns bs
      let (ds, bs) ← readRowValues bitmap (i + 1) ts bs
      return (d :: ds, bs)

/-- "Binary Protocol Resultset Row": 0x00, NULL bitmap of `(n + 7 + 2) / 8` bytes, values. -/
def readRow (types : List (Nat × Bool)) (bs : Bytes) : Option (List Datum × Bytes) := do
  let (h, bs) ← readInt 1 bs
  if h ≠ 0 then none
  let (bitmap, bs) ← readN ((types.length + 7 + 2) / 8) bs
  readRowValues bitmap 0 types bs

end Verif.Spec

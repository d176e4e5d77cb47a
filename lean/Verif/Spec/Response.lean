import Verif.Spec.Packet
import Verif.Spec.Text

/-!
# Spec: what a server sends

Payloads of the packets a server sends in the command phase (MySQL documentation, protocol 4.1,
`CLIENT_DEPRECATE_EOF` negotiated unless said otherwise), and sequences of packets on the wire.
-/

namespace Verif.Spec

/-- packets on the wire with consecutive sequence numbers. -/
def framesAll : UInt8 → List Bytes → Bytes
  | _, [] => []
  | seq, p :: ps => frames seq p ++ framesAll (seq + UInt8.ofNat (frameCount p)) ps

/-- the sequence number after these packets. -/
def seqAfter : UInt8 → List Bytes → UInt8
  | seq, [] => seq
  | seq, p :: ps => seqAfter (seq + UInt8.ofNat (frameCount p)) ps

/-- OK packet; the message is left out if empty. -/
def okPacket (affected lastId status warnings : Nat) (msg : Str) : Bytes :=
  [0x00] ++ lenenc affected ++ lenenc lastId ++ le 2 status ++ le 2 warnings ++
    (if msg = [] then [] else lenencStr (utf8 msg))

/-- OK packet with session state information (`CLIENT_SESSION_TRACK`, status bit 0x4000). -/
def okPacketTracked (affected lastId status warnings : Nat) (msg info : Str) : Bytes :=
  [0x00] ++ lenenc affected ++ lenenc lastId ++ le 2 status ++ le 2 warnings ++
    lenencStr (utf8 msg) ++ lenencStr (utf8 info)

/-- the SQL state in an ERR packet: `#` and five bytes. -/
def errState : Option Bytes → Bytes
  | some s => 0x23 :: s
  | none => []

/-- ERR packet; `state` (five bytes) only in protocol 4.1. -/
def errPacket (code : Nat) (state : Option Bytes) (msg : Str) : Bytes :=
  [0xFF] ++ le 2 code ++ errState state ++ utf8 msg

/-- the end of a result set: an OK packet with header 0xFE, no rows affected, no message. -/
def terminator (status warnings : Nat) : Bytes :=
  [0xFE] ++ lenenc 0 ++ lenenc 0 ++ le 2 status ++ le 2 warnings

/-- the end of a result set for a client without `CLIENT_DEPRECATE_EOF`. -/
def oldEof (status warnings : Nat) : Bytes := [0xFE] ++ le 2 warnings ++ le 2 status

/-- a text row: per column NULL or the bytes of its text. -/
def textCells : List (Option Bytes) → Bytes
  | [] => []
  | none :: cs => 0xFB :: textCells cs
  | some t :: cs => lenencStr t ++ textCells cs

/-- a packet carrying a row of a result set with at least one column, text or binary. -/
def IsRow (p : Bytes) : Prop :=
  (∃ cells : List (Option Bytes), cells ≠ [] ∧
      (∀ t, some t ∈ cells → t.length < 2 ^ 64) ∧ p = textCells cells) ∨
  (∃ r, p = 0x00 :: r)

/-- description of a column. -/
structure ColDesc where
  db : Str
  table : Str
  orgTable : Str
  name : Str
  orgName : Str
  charset : Nat
  length : Nat
  code : Nat
  flags : Nat
  decimals : Nat
  deriving DecidableEq, Repr

/-- column definition packet. -/
def colDef (d : ColDesc) : Bytes :=
  lenencStr (utf8 "def".toList) ++ lenencStr (utf8 d.db) ++ lenencStr (utf8 d.table) ++
    lenencStr (utf8 d.orgTable) ++ lenencStr (utf8 d.name) ++ lenencStr (utf8 d.orgName) ++
    [0x0C] ++ le 2 d.charset ++ le 4 d.length ++ le 1 d.code ++ le 2 d.flags ++ le 1 d.decimals ++
    [0, 0]

/-- answer to COM_STMT_PREPARE. -/
def stmtOk (id columns params warnings : Nat) : Bytes :=
  [0x00] ++ le 4 id ++ le 2 columns ++ le 2 params ++ [0] ++ le 2 warnings

/-- the packets of a result set with `cols.length > 0` columns. -/
def resultSet (cols : List ColDesc) (rows : List Bytes) (status warnings : Nat) : List Bytes :=
  lenenc cols.length :: cols.map colDef ++ rows ++ [terminator status warnings]

end Verif.Spec

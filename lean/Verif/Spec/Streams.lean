import Verif.Spec.AcceptedText
import Verif.Spec.AcceptedBin
import Verif.Model.Io

/-!
# Spec: what a stream of bytes has to be

Conversations in terms of the packets on the stream: which packets are next, and what a packet says by its first byte.
The server is arbitrary; nothing is assumed of the bytes that arrive.
-/

namespace Verif.Spec

/-- the packets `ps` are next on the stream of `c`, numbered from the number expected; `c'` is `c` behind them. -/
def Took (c : Conn) (ps : List Bytes) (c' : Conn) : Prop :=
  ∃ rest, c.rx = (framesAll c.seqId ps).map Rx.byte ++ rest ∧
    c' = { c with
      rx := rest
      seqId := seqAfter c.seqId ps }

/-- a command has been sent; the answer continues its numbering. -/
def sent (c : Conn) (cmd : Bytes) : Conn :=
  { c with
    tx := c.tx ++ frames 0 cmd
    seqId := UInt8.ofNat (frameCount cmd) }

/-- an OK packet as the client takes it. -/
def OkForm (p : Bytes) (affected lastId : UInt64) (status warnings : UInt16) (message : Option Str) : Prop :=
  ∃ a l s rest, IntForm affected.toNat a ∧ IntForm lastId.toNat l ∧ status = s &&& 0xFFFB ∧
    p = [0] ++ a ++ l ++ le 2 s.toNat ++ le 2 warnings.toNat ++ rest ∧
    ∀ m, message = some m ↔ HasText rest m

/-- an ERR packet as the client takes it, and what it says. -/
def ErrForm (caps : UInt32) (p : Bytes) (code : UInt16) (state : Option Bytes) (msg : Str) : Prop :=
  p = errPacket code.toNat state msg ∧ stateFor (caps.toNat.testBit bitProtocol41) state ∧
    (code = 0xFFFF → caps.toNat.testBit 29 = false)

/-- a packet that announces `n` columns; what follows the number is ignored. -/
def Announces (n : Nat) (p : Bytes) : Prop :=
  ∃ l rest, IntForm n l ∧ p = l ++ rest ∧ p.head? ≠ some 0x00 ∧ p.head? ≠ some 0xFB ∧ p.head? ≠ some 0xFF

/-- how many columns of 104 bytes fit into 2^63 - 1 bytes. -/
def mostColumns : Nat := 88686269585142075

/-- … and not more than the client can have room for. -/
def CountForm (n : Nat) (p : Bytes) : Prop := n ≤ mostColumns ∧ Announces n p

/-- the client gives up at the head of a result set: a request for a local file, or more columns than there can be
room for. -/
def HeadPanics (c c' : Conn) : Prop :=
  (∃ name, Took c [0xFB :: name] c') ∨
  ∃ n p c1, mostColumns < n ∧ Announces n p ∧ Took c [p] c1 ∧ c' = { c1 with pendingResult := true }

/-- a column definition as the client takes it; `f1`, `f2` and what follows are ignored. -/
def ColumnForm (p : Bytes) (d : ColumnDef) : Prop :=
  (∀ s ∈ [d.db, d.table, d.orgTable, d.name, d.orgName], (utf8 s).length < 256) ∧
  ∃ f1 f2 rest, p = str8 "def".toList ++ str8 d.db ++ str8 d.table ++ str8 d.orgTable ++
    str8 d.name ++ str8 d.orgName ++ columnTail d f1 f2 ++ rest

/-- the first packet of the answer to a request to prepare: id, parameters and how many packets follow. -/
def StmtForm (p : Bytes) (id : UInt32) (params follow : Nat) : Prop :=
  ∃ (cols ps warnings : UInt16) (filler : UInt8) (rest : Bytes), params = ps.toNat ∧ follow = ps.toNat + cols.toNat ∧
    p = [0] ++ le 4 id.toNat ++ le 2 cols.toNat ++ le 2 ps.toNat ++ [filler] ++ le 2 warnings.toNat ++ rest

/-- a packet that ends the rows. -/
def IsEnd (caps : UInt32) (p : Bytes) : Prop :=
  p.head? = some 0xFE ∧ p.length < (if caps.toNat.testBit bitDeprecateEof then maxFrame else 8)

/-- what is left of `s` when an integer is taken off, or as much of one as there is. -/
def afterInt : Bytes → Bytes
  | [] => []
  | x :: r =>
    let k := if x = 0xFC then 2 else if x = 0xFD then 3 else if x = 0xFE then 8 else 0
    if k ≤ r.length then r.drop k else r

/-- the end of the rows as the client takes it: status and warnings are where two integers end that are counted from
the marker on (the protocol: from behind the marker). -/
def EndForm (p : Bytes) (status warnings : UInt16) (message : Option Str) : Prop :=
  ∃ s rest, status = s &&& 0xFFFB ∧ afterInt (afterInt p) = le 2 s.toNat ++ le 2 warnings.toNat ++ rest ∧
    ∀ m, message = some m ↔ HasText rest m

/-- a row of the text protocol for columns of the given types; what follows the last cell is ignored. -/
def TextRowForm (fp : FloatParse) (caps : UInt32) (types : List (Nat × Bool)) (p : Bytes) (vs : List Value) : Prop :=
  p ≠ [] ∧ ¬ IsEnd caps p ∧ ∃ cells rest, TextCells fp types vs cells ∧ p = cells ++ rest

/-- a row of the binary protocol: a byte, the bits of the NULLs, the cells; what follows is ignored. -/
def BinRowForm (caps : UInt32) (types : List (Nat × Bool)) (p : Bytes) (vs : List Value) : Prop :=
  ¬ IsEnd caps p ∧ ∃ head bm cells, bm.length = (types.length + 9) / 8 ∧ BinCells bm 0 types vs cells ∧
    p = head :: bm ++ cells

end Verif.Spec

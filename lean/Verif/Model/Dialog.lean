import Verif.Model.Query

/-!
# What a caller does with a connection, and what they see of it

A caller issues commands; a result set may be read in any way and dropped at any time (the borrow
of the connection ends with it).  The functions called are those of `Verif/Model/Query.lean`; here
the result set stays usable after an error, as in result_set.rs 66-103 (`&mut self`).
-/

namespace Verif

/-- the calls on a result set (result_set.rs 66, 91, 99, 125). -/
inductive Take where
  | next
  | collect
  | one
  | finish
  deriving DecidableEq, Repr

inductive Got (R : Type) where
  | row (r : Option R)
  | rows (l : List R)
  | ended (ok : OkPacket)
  deriving DecidableEq, Repr

/-- `ok_packet` only changes with success. -/
def rsAfter {α : Type} (rs : RSet) : Out Error (RSet × α) → RSet
  | .ok (rs', _) => rs'
  | _ => rs

/-- result_set.rs 99-103 `one` with the result set it leaves behind. -/
def takeOne {R : Type} (rd : RowReader R) (rs : RSet) (c : Conn) :
    (Out Error (Option R) × RSet) × Conn :=
  match rs.next rd c with
  | (.panic, c1) => ((.panic, rs), c1)
  | (o, c1) =>
    match (rsAfter rs o).collect rd c1 with
    | (.ok (rs2, _), c2) => ((o.map' Prod.snd, rs2), c2)
    | (.err e, c2) => ((.err e, rsAfter rs o), c2)
    | (.panic, c2) => ((.panic, rsAfter rs o), c2)

def Take.run {R : Type} (rd : RowReader R) (rs : RSet) :
    Take → Conn → (Out Error (Got R) × RSet) × Conn
  | .next, c =>
    let p := rs.next rd c
    ((p.1.map' fun x => .row x.2, rsAfter rs p.1), p.2)
  | .collect, c =>
    let p := rs.collect rd c
    ((p.1.map' fun x => .rows x.2, rsAfter rs p.1), p.2)
  | .one, c =>
    let p := takeOne rd rs c
    ((p.1.1.map' .row, p.1.2), p.2)
  | .finish, c =>
    let p := rs.finish rd c
    ((p.1.map' .ended, rs), p.2)

/-- several calls; `finish` takes the result set away. -/
def takeAll {R : Type} (rd : RowReader R) : List Take → RSet → Conn → List (Out Error (Got R)) × Conn
  | [], _, c => ([], c)
  | .finish :: _, rs, c =>
    let p := Take.run rd rs .finish c
    ([p.1.1], p.2)
  | t :: ts, rs, c =>
    let p := Take.run rd rs t c
    let q := takeAll rd ts p.1.2 p.2
    (p.1.1 :: q.1, q.2)

/-- a command and what is done with its result. -/
inductive Step (R : Type) where
  | query (sql : Str) (rd : RowReader R) (ts : List Take)
  | executeQuery (sql : Str)
  | prepare (sql : Str)
  | stmtQuery (p : Prepared) (values : List Value) (rd : RowReader R) (ts : List Take)
  | stmtExecute (p : Prepared) (values : List Value)

/-- what the caller sees. -/
inductive Seen (R : Type) where
  | result (o : Out Error RSet) (gots : List (Out Error (Got R)))
  | done (o : Out Error OkPacket)
  | prepared (o : Out Error Prepared)

/-- read a result set that may have been opened. -/
def useResult {R : Type} (rd : RowReader R) (ts : List Take) (m : M RSet) (c : Conn) :
    Seen R × Conn :=
  match m c with
  | (.ok rs, c1) =>
    let q := takeAll rd ts rs c1
    (.result (.ok rs) q.1, q.2)
  | (o, c1) => (.result o [], c1)

def Step.run {R : Type} : Step R → Conn → Seen R × Conn
  | .query sql rd ts, c => useResult rd ts (Verif.query sql) c
  | .executeQuery sql, c =>
    let p := Verif.executeQuery sql c
    (.done p.1, p.2)
  | .prepare sql, c =>
    let p := prepareStatement sql c
    (.prepared p.1, p.2)
  | .stmtQuery p values rd ts, c => useResult rd ts (p.query values) c
  | .stmtExecute p values, c =>
    let q := p.execute values c
    (.done q.1, q.2)

/-- a whole history. -/
def runSteps {R : Type} : List (Step R) → Conn → List (Seen R) × Conn
  | [], c => ([], c)
  | x :: xs, c =>
    let p := x.run c
    let q := runSteps xs p.2
    (p.1 :: q.1, q.2)

/-- the request a step sends last, if it sends one; the server numbers its answer after it. -/
def Step.request {R : Type} : Step R → Option Bytes
  | .query sql _ _ => some (0x03 :: utf8 sql)
  | .executeQuery sql => some (0x03 :: utf8 sql)
  | .prepare sql => some (0x16 :: utf8 sql)
  | .stmtQuery p values _ _ | .stmtExecute p values =>
    if values.length ≠ p.params then none
    else match ExecRequest.new (ε := Error) p.id values with
      | .ok req => some req.serialize
      | _ => none

end Verif

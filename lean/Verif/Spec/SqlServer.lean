import Verif.Spec.Active
import Verif.Spec.Relational
import Verif.Spec.Server

/-!
# Spec: a server with tables

A server that prepares and executes insert and update statements: it reads the bytes of the commands,
keeps the prepared statements, the long data and the tables, and answers with the bytes of the
protocol.  What depends on the schema and the configuration is arbitrary (`SqlServer`).
-/

namespace Verif.Spec

/-- a statement the server understands. -/
inductive Prep where
  | insert (s : InsertStmt)
  | update (s : UpdateStmt)

def Prep.columns : Prep → List Str
  | .insert s => s.columns
  | .update s => s.columns

/-- the number of parameters. -/
def Prep.marks : Prep → Nat
  | .insert s => s.marks
  | .update s => s.columns.length + 1

def parsePrep (ts : List Tok) : Option Prep :=
  match parseInsert ts with
  | some s => some (.insert s)
  | none => (parseUpdate ts).map .update

abbrev Tables := Str → List Rec

structure SqlError where
  code : UInt16
  state : Str
  msg : Str
  deriving DecidableEq, Repr

structure SqlState where
  rows : Tables
  prepared : Nat → Option Prep
  long : LongData

/-- the schema and the configuration. -/
structure SqlServer where
  /-- the comparison `=`. -/
  eq : Datum → Datum → Bool
  /-- the defaults of the columns of a table. -/
  defaults : Str → Rec
  /-- the auto increment column of a table. -/
  auto : Str → Option Str
  /-- a value for the auto increment column that makes the server generate one (NULL, 0). -/
  blank : Datum → Bool
  /-- the next value of the auto increment column. -/
  nextKey : Str → List Rec → UInt64
  /-- the value as a value of the column. -/
  keyDatum : Str → UInt64 → Datum
  /-- the id reported if none is generated. -/
  plainId : Str → Rec → UInt64
  /-- constraints: the tables before and after. -/
  refuses : Tables → Tables → Option SqlError
  /-- the id of the next statement. -/
  nextStmt : SqlState → UInt32
  /-- the definition of a parameter. -/
  paramDef : Bytes
  status : UInt16
  warnings : UInt16
  message : Str
  /-- whether ERR packets have the SQL state. -/
  protocol41 : Bool

namespace SqlServer

/-- the value given for a column. -/
def given (fields : List (Str × Datum)) (c : Str) : Option Datum :=
  (fields.find? (·.1 = c)).map (·.2)

/-- the server generates the key of a row with these fields. -/
def generates (S : SqlServer) (t : Str) (fields : List (Str × Datum)) : Bool :=
  match S.auto t with
  | none => false
  | some k =>
    match given fields k with
    | none => true
    | some d => S.blank d

/-- the row that an insert stores: the given fields, the generated key, the defaults. -/
def record (S : SqlServer) (rows : Tables) (t : Str) (fields : List (Str × Datum)) : Rec := fun c =>
  if S.auto t = some c ∧ S.generates t fields = true then S.keyDatum t (S.nextKey t (rows t))
  else (given fields c).getD (S.defaults t c)

/-- the id that the server reports for it. -/
def insertId (S : SqlServer) (rows : Tables) (t : Str) (fields : List (Str × Datum)) : UInt64 :=
  if S.generates t fields = true then S.nextKey t (rows t) else S.plainId t (S.record rows t fields)

/-- the tables after the row has been appended. -/
def withRow (rows : Tables) (t : Str) (r : Rec) : Tables :=
  fun t' => if t' = t then rows t ++ [r] else rows t'

/-- a row after the assignments. -/
def assign (fields : List (Str × Datum)) (r : Rec) : Rec := fun c => (given fields c).getD (r c)

/-- the tables after an update of the rows with this key. -/
def updated (S : SqlServer) (rows : Tables) (t key : Str) (id : Datum) (fields : List (Str × Datum)) :
    Tables :=
  fun t' => if t' = t then (rows t).map fun r => if S.eq (r key) id then assign fields r else r
    else rows t'

def okAnswer (S : SqlServer) (affected id : UInt64) : Bytes :=
  okPacket affected.toNat id.toNat S.status.toNat S.warnings.toNat S.message

def errAnswer (S : SqlServer) (e : SqlError) : Bytes :=
  errPacket e.code.toNat (if S.protocol41 then some (utf8 e.state) else none) e.msg

/-- executing a statement: the tables afterwards and the answer. -/
def run (S : SqlServer) (rows : Tables) : Prep → List Datum → Tables × Bytes
  | .insert s, params =>
    let fields := s.columns.zip params
    let after := withRow rows s.table (S.record rows s.table fields)
    match S.refuses rows after with
    | some e => (rows, S.errAnswer e)
    | none => (after, S.okAnswer 1 (S.insertId rows s.table fields))
  | .update s, params =>
    let fields := s.columns.zip params
    let id := params.getLast?.getD .null
    let after := S.updated rows s.table s.key id fields
    match S.refuses rows after with
    | some e => (rows, S.errAnswer e)
    | none => (after, S.okAnswer (.ofNat ((rows s.table).countP fun r => S.eq (r s.key) id)) 0)

/-- the reaction to a command: the packets sent.  `none`: something else than described here. -/
def react (S : SqlServer) (st : SqlState) (cmd : Bytes) : Option (SqlState × List Bytes) :=
  match cmd with
  | [] => none
  | b :: bs =>
    if b = 0x16 then do
      let text ← fromUtf8 bs
      let ts ← tokens text
      let p ← parsePrep ts
      if p.marks = placeholders ts ∧ p.marks < 2 ^ 16 ∧ p.columns.Nodup then
        let id := (S.nextStmt st).toNat
        some ({ rows := st.rows
                prepared := fun i => if i = id then some p else st.prepared i
                long := fun i => if i = id then fun _ => none else st.long i },
              stmtOk id 0 p.marks 0 :: List.replicate p.marks S.paramDef)
      else none
    else if b = 0x18 then do
      let long ← longStep st.long cmd
      some ({ st with long := long }, [])
    else if b = 0x17 then do
      let (id, _) ← readInt 4 bs
      let p ← st.prepared id
      let e ← readExecute p.marks (st.long id) cmd
      some ({ st with
                rows := (S.run st.rows p e.params).1
                long := fun i => if i = id then fun _ => none else st.long i },
            [(S.run st.rows p e.params).2])
    else none

/-- a conversation in which the client sends these commands: the state afterwards, the bytes of the
server, the bytes of the client. -/
def talk (S : SqlServer) : SqlState → List Bytes → Option (SqlState × Bytes × Bytes)
  | st, [] => some (st, [], [])
  | st, m :: ms => do
    let (st1, replies) ← S.react st m
    let (st2, sent, received) ← S.talk st1 ms
    some (st2, framesAll (UInt8.ofNat (frameCount m)) replies ++ sent, frames 0 m ++ received)

/-- fields with their meaning. -/
def meanings (fields : List Field) : List (Str × Datum) := fields.map fun f => (f.1, meaning f.2)

/-- these rows are stored one after the other; the ids are those the server reports. -/
inductive Stores (S : SqlServer) : Tables → List Row → Tables → Prop
  | nil {rows} : Stores S rows [] rows
  | cons {rows row log rows'} :
      S.refuses rows (withRow rows row.table (S.record rows row.table (meanings row.fields))) = none →
      row.id = S.insertId rows row.table (meanings row.fields) →
      Stores S (withRow rows row.table (S.record rows row.table (meanings row.fields))) log rows' →
      Stores S rows (row :: log) rows'

end SqlServer

/-! ### active models that can be written -/

/-- the names of the columns that are set. -/
def refNames : ActiveRefs → List Str
  | .nil => []
  | .set f _ r => f :: refNames r
  | .insert f _ r => f :: refNames r
  | .unset _ r => refNames r

def setNames : ActiveModel → List Str
  | .mk _ _ plain structs refs =>
    (plain.filterMap fun f => f.2.map fun _ => f.1) ++
    (structs.flatMap fun s => (s.2.getD []).map fun x => s.1 ++ '_' :: x.1) ++
    refNames refs

/-- the value exists and fits into a packet of the protocol. -/
def Sendable (v : Value) : Prop := ∀ b, v = .bytes b → b.length < 2 ^ 64

def SendableOut (x : Out SerializeError Value) : Prop := ∃ v, x = .ok v ∧ Sendable v

mutual
/-- names that can be quoted, distinct columns, fewer than 2^16 of them, convertible values. -/
def Writable : ActiveModel → Prop
  | .mk t p plain structs refs =>
    '`' ∉ t ∧ (∀ n ∈ setNames (.mk t p plain structs refs), '`' ∉ n) ∧
    (setNames (.mk t p plain structs refs)).Nodup ∧
    (setNames (.mk t p plain structs refs)).length < 2 ^ 16 ∧
    (∀ f ∈ plain, ∀ x, f.2 = some x → SendableOut x) ∧
    (∀ s ∈ structs, ∀ ms, s.2 = some ms → ∀ x ∈ ms, SendableOut x.2) ∧ WritableRefs refs

def WritableRefs : ActiveRefs → Prop
  | .nil => True
  | .set _ v r => Sendable v ∧ WritableRefs r
  | .insert _ m r => Writable m ∧ WritableRefs r
  | .unset _ r => WritableRefs r
end

end Verif.Spec

import Verif.Spec.SqlServer

/-!
# Spec: a server with users and addresses, and several connections to it

The state of the server is shared by the connections; prepared statements belong to one of them.
-/

namespace Verif.Spec

structure FillDb where
  /-- the ids of the users. -/
  users : List UInt32
  /-- the addresses: id and user. -/
  addresses : List (UInt32 × UInt32)
  /-- the column `primary_address`, if it is there. -/
  primary : Option (UInt32 → Option UInt32)

inductive FillStmt where
  | addresses | update
  deriving DecidableEq, Repr

structure FillState where
  db : FillDb
  /-- by connection and id. -/
  prepared : Nat → Nat → Option FillStmt

structure FillServer where
  /-- reasons to refuse the new column. -/
  refusesColumn : FillDb → Option SqlError
  /-- reasons to refuse an assignment: user and address. -/
  refuses : FillDb → UInt32 → UInt32 → Option SqlError
  /-- reasons not to drop the column. -/
  refusesDrop : FillDb → Option SqlError
  /-- the order in which users are sent. -/
  order : List UInt32 → List UInt32
  /-- the order in which addresses are found. -/
  found : List UInt32 → List UInt32
  nextStmt : FillState → Nat → UInt32
  userDesc : ColDesc
  addressDesc : ColDesc
  paramDef : Bytes
  affected : Nat → UInt64
  status : UInt16
  warnings : UInt16
  message : Str
  /-- whether ERR packets have the SQL state. -/
  protocol41 : Bool

namespace FillServer

variable (S : FillServer)

/-! ### statements -/

def w (s : String) : Tok := .word s.toList
def n (s : String) : Tok := .name s.toList

def alterToks : List Tok :=
  [w "ALTER", w "TABLE", n "user", w "ADD", w "COLUMN", n "primary_address", w "INT", w "UNSIGNED", w "NULL",
   .punct ',', w "ADD", w "CONSTRAINT", n "user-primary_address", w "FOREIGN", w "KEY", .punct '(',
   n "primary_address", .punct ')', w "REFERENCES", n "address", .punct '(', n "id", .punct ')']

def dropToks : List Tok :=
  [w "ALTER", w "TABLE", n "user", w "DROP", w "CONSTRAINT", n "user-primary_address", .punct ',', w "DROP",
   w "COLUMN", n "primary_address"]

def usersToks : List Tok := [w "SELECT", n "id", w "FROM", n "user"]

def addressesToks : List Tok :=
  [w "SELECT", n "id", w "FROM", n "address", w "WHERE", n "user", .punct '=', .punct '?', w "LIMIT", .num 2]

def updateToks : List Tok :=
  [w "UPDATE", n "user", w "SET", n "primary_address", .punct '=', .punct '?', w "WHERE", n "id", .punct '=',
   .punct '?']

/-! ### answers -/

def okAnswer (k : Nat) : Bytes :=
  okPacket (S.affected k).toNat 0 S.status.toNat S.warnings.toNat S.message

def errAnswer (e : SqlError) : Bytes :=
  errPacket e.code.toNat (if S.protocol41 then some (utf8 e.state) else none) e.msg

/-- a row of a text result with one number. -/
def textRow (id : UInt32) : Bytes := lenencStr (dec id.toNat)
/-- a row of a binary result with one number: no NULL. -/
def binRow (id : UInt32) : Bytes := [0x00] ++ [0x00] ++ le 4 id.toNat

/-- the number a parameter is compared with or assigned as. -/
def number : Datum → Option Int
  | .int _ _ v => some v
  | _ => none

/-- the number as a value of a column `int unsigned`. -/
def idOf (v : Int) : Option UInt32 :=
  if 0 ≤ v ∧ v < 4294967296 then some (UInt32.ofNat v.toNat) else none

/-- the ids of the addresses of a user. -/
def addressesOf (db : FillDb) (user : Int) : List UInt32 :=
  (db.addresses.filter fun a => decide ((a.2.toNat : Int) = user)).map (·.1)

/-- `primary_address` of a user is set. -/
def assigned (p : UInt32 → Option UInt32) (user address : UInt32) : UInt32 → Option UInt32 :=
  fun u => if u = user then some address else p u

/-- the update of the user with this id. -/
def update (st : FillState) (p : UInt32 → Option UInt32) (user address : UInt32) : FillState × List Bytes :=
  match S.refuses st.db user address with
  | some e => (st, [S.errAnswer e])
  | none => ({ st with db := { st.db with primary := some (assigned p user address) } },
      [S.okAnswer (st.db.users.count user)])

def updateWith (st : FillState) :
    List (Option Int) → Option (UInt32 → Option UInt32) → Option (FillState × List Bytes)
  | [some address, some user], some p =>
    match idOf address, idOf user with
    | some a, some u => some (S.update st p u a)
    | _, _ => none
  | _, _ => none

/-- the reaction to a command on connection `i`: the state afterwards and the packets sent.  `none`:
something else than described here. -/
def react (i : Nat) (st : FillState) (cmd : Bytes) : Option (FillState × List Bytes) :=
  match cmd with
  | [] => none
  | b :: bs =>
    if b = 0x03 then do
      let text ← fromUtf8 bs
      let ts ← tokens text
      if ts = alterToks then
        match S.refusesColumn st.db with
        | some e => some (st, [S.errAnswer e])
        | none => some ({ st with db := { st.db with primary := some fun _ => none } }, [S.okAnswer 0])
      else if ts = dropToks then
        match S.refusesDrop st.db with
        | some e => some (st, [S.errAnswer e])
        | none => some ({ st with db := { st.db with primary := none } }, [S.okAnswer 0])
      else if ts = usersToks then
        some (st, resultSet [S.userDesc] ((S.order st.db.users).map textRow) S.status.toNat S.warnings.toNat)
      else none
    else if b = 0x16 then do
      let text ← fromUtf8 bs
      let ts ← tokens text
      let id := (S.nextStmt st i).toNat
      let prepared := fun (k : FillStmt) (j m : Nat) => if j = i ∧ m = id then some k else st.prepared j m
      if ts = addressesToks then
        some ({ st with prepared := prepared .addresses }, [stmtOk id 1 1 0, S.paramDef, colDef S.addressDesc])
      else if ts = updateToks then
        some ({ st with prepared := prepared .update }, [stmtOk id 0 2 0, S.paramDef, S.paramDef])
      else none
    else if b = 0x17 then do
      let (id, _) ← readInt 4 bs
      match st.prepared i id with
      | some .addresses => do
        let e ← readExecute 1 (fun _ => none) cmd
        match e.params.map number with
        | [some user] =>
          some (st, resultSet [S.addressDesc] (((S.found (addressesOf st.db user)).take 2).map binRow)
            S.status.toNat S.warnings.toNat)
        | _ => none
      | some .update => do
        let e ← readExecute 2 (fun _ => none) cmd
        S.updateWith st (e.params.map number) st.db.primary
      | none => none
    else none

/-- a conversation in which these commands arrive, each on its connection: the state afterwards and the
bytes sent on every connection. -/
def talk : FillState → List (Nat × Bytes) → Option (FillState × (Nat → Bytes))
  | st, [] => some (st, fun _ => [])
  | st, (i, m) :: ms => do
    let (st1, replies) ← S.react i st m
    let (st2, sent) ← talk st1 ms
    some (st2, fun j =>
      if j = i then framesAll (UInt8.ofNat (frameCount m)) replies ++ sent j else sent j)

/-! ### what is expected -/

/-- the address of a user who has exactly one. -/
def theOne (db : FillDb) (user : UInt32) : Option UInt32 :=
  match db.addresses.filter fun a => decide (a.2 = user) with
  | [a] => some a.1
  | _ => none

/-- the users are settled one after the other: who has one address gets it; the first refusal ends it. -/
def settle (db : FillDb) (p : UInt32 → Option UInt32) : List UInt32 → FillDb × Option SqlError
  | [] => ({ db with primary := some p }, none)
  | u :: us =>
    match theOne db u with
    | none => settle db p us
    | some a =>
      match S.refuses { db with primary := some p } u a with
      | some e => ({ db with primary := some p }, some e)
      | none => settle db (assigned p u a) us

/-- the migration: the column, then the users. -/
def filled (db : FillDb) : FillDb × Option SqlError :=
  match S.refusesColumn db with
  | some e => (db, some e)
  | none => S.settle db (fun _ => none) (S.order db.users)

end FillServer

end Verif.Spec

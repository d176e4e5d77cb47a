import Verif.Spec.SqlServer
import Verif.Spec.SqlTokens
import Verif.Spec.Text
import Verif.Spec.MigrateWire
import Verif.Spec.MigSql

/-!
# Spec: a server with a table of migrations

A server that executes statements given as text.  Statements about the table `migrations` are those
below; what all others do to the rest of the database is arbitrary, as are the comparison of names
(collation), what happens to names that are too long, the order of rows, and further reasons to
refuse a record.
-/

namespace Verif.Spec

/-! ### statements about `migrations` -/

inductive MigCmd where
  | tableExists
  | create
  | select
  | insert (a b c : Nat) (name : Str)
  | delete (a b c : Nat) (name : Str)
  deriving DecidableEq, Repr

/-- `select 1 from information_schema.PARTITIONS where TABLE_NAME = … and TABLE_SCHEMA = DATABASE()`: one
row per partition of the table in the current database. -/
def existsToks : List Tok :=
  [.word "select".toList, .num 1, .word "from".toList, .name "information_schema".toList, .punct '.',
   .name "PARTITIONS".toList, .word "where".toList, .name "TABLE_NAME".toList, .punct '=',
   .str "migrations".toList, .word "and".toList, .name "TABLE_SCHEMA".toList, .punct '=',
   .word "DATABASE".toList, .punct '(', .punct ')']

/-- `x smallint unsigned not null,` -/
def smallintToks (col : String) : List Tok :=
  [.name col.toList, .word "smallint".toList, .word "unsigned".toList, .word "not".toList,
   .word "null".toList, .punct ',']

def createToks : List Tok :=
  [.word "create".toList, .word "table".toList, .name "migrations".toList, .punct '('] ++
  smallintToks "version_0" ++ smallintToks "version_1" ++ smallintToks "version_2" ++
  [.name "name".toList, .word "varchar".toList, .punct '(', .num 255, .punct ')', .word "not".toList,
   .word "null".toList, .punct ',',
   .name "applied_at".toList, .word "datetime".toList, .word "not".toList, .word "null".toList,
   .word "default".toList, .word "current_timestamp".toList, .punct ',',
   .word "unique".toList, .punct '(', .name "version_0".toList, .punct ',', .name "version_1".toList,
   .punct ',', .name "version_2".toList, .punct ',', .name "name".toList, .punct ')', .punct ')']

def selectToks : List Tok :=
  [.word "select".toList, .name "version_0".toList, .punct ',', .name "version_1".toList, .punct ',',
   .name "version_2".toList, .punct ',', .name "name".toList, .word "from".toList, .name "migrations".toList]

/-- the literals of a statement. -/
def numOf : Tok → Option Nat
  | .num n => some n
  | _ => none
def strOf : Tok → Option Str
  | .str s => some s
  | _ => none

/-- reading a statement about `migrations`. -/
def readMig (ts : List Tok) : Option MigCmd :=
  if ts = existsToks then some .tableExists
  else if ts = createToks then some .create
  else if ts = selectToks then some .select
  else
    match ts.filterMap numOf, ts.filterMap strOf with
    | [a, b, c], [name] =>
      if ts = insertToks a b c name then some (.insert a b c name)
      else if ts = deleteToks a b c name then some (.delete a b c name)
      else none
    | _, _ => none

/-! ### the server -/

/-- the rows of `migrations` (without the time), if there is such a table, and the rest of the database. -/
structure MigStore (W : Type) where
  table : Option (List MigKey)
  world : W

structure MigServer (W : Type) where
  /-- statements about something else. -/
  foreign : W → Str → Except SqlError W
  /-- equality of names. -/
  same : Str → Str → Bool
  duplicate : MigKey → SqlError
  /-- a name of more than 255 characters: refused, or cut. -/
  long : Str → Except SqlError Str
  outOfRange : SqlError
  noTable : SqlError
  hasTable : SqlError
  /-- other reasons to refuse a record. -/
  refuse : W → List MigKey → MigKey → Option SqlError
  /-- the order in which rows are sent. -/
  order : List MigKey → List MigKey
  /-- the number of partitions of the table, minus one. -/
  partitions : Nat
  /-- the description of the column `1`. -/
  oneDesc : ColDesc
  /-- what else there is in the descriptions of the columns of the table. -/
  desc : Str → ColDesc
  affected : Nat → UInt64
  status : UInt16
  warnings : UInt16
  message : Str
  /-- whether ERR packets have the SQL state. -/
  protocol41 : Bool

namespace MigServer

variable {W : Type} (S : MigServer W)

/-- the description of a column: the name in the table, and the type of its declaration; the name in the
result is left open. -/
def descOf (col : Str) (code : Nat) (unsigned : Bool) : ColDesc :=
  { S.desc col with
    orgName := col
    code := code
    flags := (S.desc col).flags / 64 * 64 + (if unsigned then 32 else 0) + (S.desc col).flags % 32 }

/-- the columns of the select: `smallint unsigned` and `varchar`. -/
def columns : List ColDesc :=
  [S.descOf "version_0".toList 2 true, S.descOf "version_1".toList 2 true,
   S.descOf "version_2".toList 2 true, S.descOf "name".toList 253 false]

def rowText (k : MigKey) : Bytes :=
  lenencStr (dec k.1.major.toNat) ++ lenencStr (dec k.1.minor.toNat) ++
    lenencStr (dec k.1.patch.toNat) ++ lenencStr (utf8 k.2)

/-- two rows the unique index does not admit together. -/
def clash (j k : MigKey) : Bool := decide (j.1 = k.1) && S.same j.2 k.2

/-- the rows after an insert. -/
def inserted (w : W) (rows : List MigKey) (a b c : Nat) (name : Str) : Except SqlError (List MigKey) :=
  if a < 2 ^ 16 ∧ b < 2 ^ 16 ∧ c < 2 ^ 16 then
    match (if 255 < name.length then S.long name else .ok name) with
    | .error e => .error e
    | .ok name' =>
      let k : MigKey := (⟨.ofNat a, .ofNat b, .ofNat c⟩, name')
      if rows.any fun j => S.clash j k then .error (S.duplicate k)
      else
        match S.refuse w rows k with
        | some e => .error e
        | none => .ok (rows ++ [k])
  else .error S.outOfRange

/-- the rows after a delete. -/
def deleted (rows : List MigKey) (a b c : Nat) (name : Str) : List MigKey :=
  rows.filter fun j =>
    !(decide (j.1.major.toNat = a) && decide (j.1.minor.toNat = b) && decide (j.1.patch.toNat = c) &&
      S.same j.2 name)

/-- a statement without rows: what it does. -/
def execute (st : MigStore W) (text : Str) : Except SqlError (MigStore W × Nat) :=
  match (tokens text).bind readMig with
  | some .create =>
    match st.table with
    | none => .ok ({ st with table := some [] }, 0)
    | some _ => .error S.hasTable
  | some (.insert a b c name) =>
    match st.table with
    | none => .error S.noTable
    | some rows =>
      match S.inserted st.world rows a b c name with
      | .ok rows' => .ok ({ st with table := some rows' }, 1)
      | .error e => .error e
  | some (.delete a b c name) =>
    match st.table with
    | none => .error S.noTable
    | some rows =>
      .ok ({ st with table := some (S.deleted rows a b c name) },
        rows.length - (S.deleted rows a b c name).length)
  | _ =>
    match S.foreign st.world text with
    | .ok w => .ok ({ st with world := w }, 0)
    | .error e => .error e

/-- the errors the server sends. -/
inductive Emits : SqlError → Prop
  | foreign {w text e} : S.foreign w text = .error e → Emits e
  | duplicate {k} : Emits (S.duplicate k)
  | long {name e} : S.long name = .error e → Emits e
  | outOfRange : Emits S.outOfRange
  | noTable : Emits S.noTable
  | hasTable : Emits S.hasTable
  | refuse {w rows k e} : S.refuse w rows k = some e → Emits e

def okAnswer (n : Nat) : Bytes :=
  okPacket (S.affected n).toNat 0 S.status.toNat S.warnings.toNat S.message

def errAnswer (e : SqlError) : Bytes :=
  errPacket e.code.toNat (if S.protocol41 then some (utf8 e.state) else none) e.msg

/-- the reaction to a command: the state afterwards and the packets sent.  `none`: something else than
described here. -/
def react (st : MigStore W) (cmd : Bytes) : Option (MigStore W × List Bytes) :=
  match cmd with
  | 0x03 :: bs => do
    let text ← fromUtf8 bs
    match (tokens text).bind readMig with
    | some .tableExists =>
      let n := if st.table.isSome then S.partitions + 1 else 0
      some (st, resultSet [S.oneDesc] (List.replicate n (lenencStr (dec 1))) S.status.toNat S.warnings.toNat)
    | some .select =>
      match st.table with
      | none => some (st, [S.errAnswer S.noTable])
      | some rows =>
        some (st, resultSet S.columns ((S.order rows).map rowText) S.status.toNat S.warnings.toNat)
    | _ =>
      match S.execute st text with
      | .ok (st', n) => some (st', [S.okAnswer n])
      | .error e => some (st, [S.errAnswer e])
  | _ => none

/-- a conversation in which the client sends these commands: the state afterwards, the bytes of the
server, the bytes of the client. -/
def talk : MigStore W → List Bytes → Option (MigStore W × Bytes × Bytes)
  | st, [] => some (st, [], [])
  | st, m :: ms => do
    let (st1, replies) ← S.react st m
    let (st2, sent, received) ← talk st1 ms
    some (st2, framesAll (UInt8.ofNat (frameCount m)) replies ++ sent, frames 0 m ++ received)

/-! ### what is expected -/

/-- executing statements one after the other: the state afterwards, how many were executed (the refused
one included), the error of the first that was refused. -/
def executeAll (st : MigStore W) : List Str → MigStore W × Nat × Option SqlError
  | [] => (st, 0, none)
  | sql :: sqls =>
    match S.execute st sql with
    | .ok (st', _) =>
      let (st2, n, e) := executeAll st' sqls
      (st2, n + 1, e)
    | .error e => (st, 1, some e)

/-- migrating up: every migration's own statement takes effect and then is recorded; the first thing
that is refused ends it. -/
def applyAll (upSql : MigKey → Str) (w : W) (rows : List MigKey) : List MigKey → W × List MigKey × Option SqlError
  | [] => (w, rows, none)
  | k :: ks =>
    match S.foreign w (upSql k) with
    | .error e => (w, rows, some e)
    | .ok w' =>
      match S.inserted w' rows k.1.major.toNat k.1.minor.toNat k.1.patch.toNat k.2 with
      | .error e => (w', rows, some e)
      | .ok rows' => applyAll upSql w' rows' ks

/-- migrating down. -/
def revertAll (downSql : MigKey → Str) (w : W) (rows : List MigKey) : List MigKey → W × List MigKey × Option SqlError
  | [] => (w, rows, none)
  | k :: ks =>
    match S.foreign w (downSql k) with
    | .error e => (w, rows, some e)
    | .ok w' =>
      revertAll downSql w' (rows.filter fun j => !(decide (j.1 = k.1) && S.same j.2 k.2)) ks

/-- the migrations whose own statement took effect on the way up: all that are recorded, and perhaps the
next, whose record was refused. -/
def tookEffect (upSql : MigKey → Str) (w : W) (rows : List MigKey) : List MigKey → List MigKey
  | [] => []
  | k :: ks =>
    match S.foreign w (upSql k) with
    | .error _ => []
    | .ok w' =>
      match S.inserted w' rows k.1.major.toNat k.1.minor.toNat k.1.patch.toNat k.2 with
      | .error _ => [k]
      | .ok rows' => k :: tookEffect upSql w' rows' ks

/-- the migrations reverted on the way down. -/
def undone (downSql : MigKey → Str) (w : W) : List MigKey → List MigKey
  | [] => []
  | k :: ks =>
    match S.foreign w (downSql k) with
    | .error _ => []
    | .ok w' => k :: undone downSql w' ks

/-- rows the table can hold. -/
def Sound (rows : List MigKey) : Prop :=
  (rows.Pairwise fun j k => S.clash j k = false) ∧ ∀ k ∈ rows, k.2.length ≤ 255

end MigServer

end Verif.Spec

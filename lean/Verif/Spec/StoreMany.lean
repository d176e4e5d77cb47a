import Verif.Spec.Several

/-!
# Spec: several programs that store models in one database at the same time

Every program has a connection of its own and a list of things to store.  The server executes one
statement after the other, in an order nobody determines; the tables are shared.
-/

namespace Verif.Spec

/-- what a program has to do: insert a model, or update the rows with this key. -/
inductive StoreJob where
  | insert (m : ActiveModel)
  | update (key : Str) (id : Value) (m : ActiveModel)

/-- a statement. -/
inductive StoreStep where
  | row (t : Str) (fields : List Field)
  | change (t key : Str) (id : Value) (fields : List Field)
  deriving DecidableEq

/-- something that happened to the tables. -/
inductive StoreEvent where
  | row (r : Row)
  | change (t key : Str) (id : Value) (fields : List Field)
  deriving DecidableEq

/-- what is left to do: statements, where what comes next may depend on the id reported for the last. -/
inductive Script (α : Type) where
  | done (a : α)
  | stmt (s : StoreStep) (next : UInt64 → Script α)

namespace Script

def andThen {α β : Type} : Script α → (α → Script β) → Script β
  | .done a, f => f a
  | .stmt s k, f => .stmt s fun id => (k id).andThen f

def result {α : Type} : Script α → Option α
  | .done a => some a
  | .stmt _ _ => none

end Script

/-- the plain fields that are set. -/
def setPlain (plain : List (Str × Option (Out SerializeError Value))) : List Field :=
  plain.filterMap fun f => match f.2 with
    | some (.ok v) => some (f.1, v)
    | _ => none

/-- the fields of the structs that are set. -/
def setStructs (structs : List (Str × Option (List (Str × Out SerializeError Value)))) : List Field :=
  structs.flatMap fun s => (s.2.getD []).filterMap fun x => match x.2 with
    | .ok v => some (s.1 ++ '_' :: x.1, v)
    | _ => none

/-- the key of a row: given with it, or the id reported. -/
def ownKey : ActiveModel → UInt64 → Value
  | .mk _ p plain _ _, id => (plain.findSome? fun f => match f.2 with
      | some (.ok v) => if some f.1 = p then some v else none
      | _ => none).getD (.ulong id)

mutual
/-- to insert a model: first the models it refers to, then its own row. -/
def insertScript : ActiveModel → Script UInt64
  | .mk t _ plain structs refs =>
    (refsScript refs).andThen fun fks => .stmt (.row t (setPlain plain ++ setStructs structs ++ fks)) .done

def refsScript : ActiveRefs → Script (List Field)
  | .nil => .done []
  | .unset _ r => refsScript r
  | .set f v r => (refsScript r).andThen fun fks => .done ((f, v) :: fks)
  | .insert f m r => (insertScript m).andThen fun id => (refsScript r).andThen fun fks =>
      .done ((f, ownKey m id) :: fks)
end

/-- to update: first the models referred to, then the columns that are set, if any are.  The number is
that of an update, 0. -/
def StoreJob.script : StoreJob → Script UInt64
  | .insert m => insertScript m
  | .update key id (.mk t _ plain structs refs) => (refsScript refs).andThen fun fks =>
      if setPlain plain ++ setStructs structs ++ fks = [] then .done 0
      else .stmt (.change t key id (setPlain plain ++ setStructs structs ++ fks)) fun _ => .done 0

/-- one after the other. -/
def jobsScript : List StoreJob → Script (List UInt64)
  | [] => .done []
  | j :: js => j.script.andThen fun id => (jobsScript js).andThen fun ids => .done (id :: ids)

/-! ### the server -/

namespace SqlServer

/-- the tables after a statement. -/
def after (S : SqlServer) (rows : Tables) : StoreStep → Tables
  | .row t fs => withRow rows t (S.record rows t (meanings fs))
  | .change t key id fs => S.updated rows t key (meaning id) (meanings fs)

/-- the id reported for a statement. -/
def idOf (S : SqlServer) (rows : Tables) : StoreStep → UInt64
  | .row t fs => S.insertId rows t (meanings fs)
  | .change .. => 0

/-- what happened with it. -/
def event (S : SqlServer) (rows : Tables) : StoreStep → StoreEvent
  | .row t fs => .row { table := t, fields := fs, id := S.insertId rows t (meanings fs) }
  | .change t key id fs => .change t key id fs

/-- the statements and long data of one connection. -/
structure Session where
  prepared : Nat → Option Prep
  long : LongData

/-- the connections talk to the server, one command after the other: the tables and the sessions
afterwards, and what the server sent to each connection. -/
def talkEach (S : SqlServer) : Tables → (Nat → Session) → List (Nat × Bytes) →
    Option (Tables × (Nat → Session) × (Nat → Bytes))
  | rows, ss, [] => some (rows, ss, fun _ => [])
  | rows, ss, (i, m) :: ms => do
    let (st, replies) ← S.react ⟨rows, (ss i).prepared, (ss i).long⟩ m
    let (rows', ss', sent) ← talkEach S st.rows
      (fun n => if n = i then ⟨st.prepared, st.long⟩ else ss n) ms
    some (rows', ss', fun j =>
      if j = i then framesAll (UInt8.ofNat (frameCount m)) replies ++ sent j else sent j)

/-- these events happen one after the other, none of them refused; the ids are those the server reports. -/
inductive Happens (S : SqlServer) : Tables → List (Nat × StoreEvent) → Tables → Prop
  | nil {rows} : Happens S rows [] rows
  | row {rows i row h rows'} :
      S.refuses rows (withRow rows row.table (S.record rows row.table (meanings row.fields))) = none →
      row.id = S.insertId rows row.table (meanings row.fields) →
      Happens S (withRow rows row.table (S.record rows row.table (meanings row.fields))) h rows' →
      Happens S rows ((i, .row row) :: h) rows'
  | change {rows i t key id fields h rows'} :
      S.refuses rows (S.updated rows t key (meaning id) (meanings fields)) = none →
      Happens S (S.updated rows t key (meaning id) (meanings fields)) h rows' →
      Happens S rows ((i, .change t key id fields) :: h) rows'

end SqlServer

/-- the commands of one connection. -/
def cmdsBy (i : Nat) (ms : List (Nat × Bytes)) : List Bytes :=
  ms.filterMap fun m => if m.1 = i then some m.2 else none

/-- what one program did. -/
def eventsBy (i : Nat) (h : List (Nat × StoreEvent)) : List StoreEvent :=
  h.filterMap fun e => if e.1 = i then some e.2 else none

/-! ### the programs -/

/-- the tables, where every program is — with what is left to do, or with the error that ended it — and
what happened until now. -/
structure StoreSystem where
  rows : Tables
  left : Nat → Except SqlError (Script (List UInt64))
  hist : List (Nat × StoreEvent)

namespace StoreSystem

def started (rows : Tables) (jobs : Nat → List StoreJob) : StoreSystem :=
  ⟨rows, fun i => .ok (jobsScript (jobs i)), []⟩

/-- the turn of program `i`: its next statement is executed or refused. -/
def turn (S : SqlServer) (x : StoreSystem) (i : Nat) : StoreSystem :=
  match x.left i with
  | .ok (.stmt s k) =>
    match S.refuses x.rows (S.after x.rows s) with
    | some e => { x with left := fun n => if n = i then .error e else x.left n }
    | none =>
      { rows := S.after x.rows s
        left := fun n => if n = i then .ok (k (S.idOf x.rows s)) else x.left n
        hist := x.hist ++ [(i, S.event x.rows s)] }
  | _ => x

def go (S : SqlServer) (x : StoreSystem) (sched : List Nat) : StoreSystem := sched.foldl (turn S) x

/-- how program `i` ended: the ids it got, or the error; `none` if it has not. -/
def outcome (x : StoreSystem) (i : Nat) : Option (Except SqlError (List UInt64)) :=
  match x.left i with
  | .error e => some (.error e)
  | .ok p => p.result.map .ok

end StoreSystem

/-! ### what a job means -/

/-- the events of a job that has been done, and the number it reports. -/
inductive JobDone : StoreJob → List StoreEvent → UInt64 → Prop
  | insert {m log id} : Inserted m log id → JobDone (.insert m) (log.map .row) id
  | update {key id t p plain structs refs fs gs log fks} : PlainSet plain fs → StructSet structs gs →
      Referred refs log fks → fs ++ gs ++ fks ≠ [] →
      JobDone (.update key id (.mk t p plain structs refs))
        (log.map .row ++ [.change t key id (fs ++ gs ++ fks)]) 0
  | same {key id t p plain structs refs log} : PlainSet plain [] → StructSet structs [] →
      Referred refs log [] → JobDone (.update key id (.mk t p plain structs refs)) (log.map .row) 0

inductive JobsDone : List StoreJob → List StoreEvent → List UInt64 → Prop
  | nil : JobsDone [] [] []
  | cons {j js h h' id ids} : JobDone j h id → JobsDone js h' ids → JobsDone (j :: js) (h ++ h') (id :: ids)

/-- the job has come as far as these events; this statement is to come next. -/
inductive JobAt : StoreJob → List StoreEvent → StoreStep → Prop
  | insert {m log t fs} : Begun m log (.ok (t, fs)) → JobAt (.insert m) (log.map .row) (.row t fs)
  | refs {key id t p plain structs refs log t' fs'} : BegunRefs refs log (.ok (t', fs')) →
      JobAt (.update key id (.mk t p plain structs refs)) (log.map .row) (.row t' fs')
  | update {key id t p plain structs refs fs gs log fks} : PlainSet plain fs → StructSet structs gs →
      Referred refs log fks → fs ++ gs ++ fks ≠ [] →
      JobAt (.update key id (.mk t p plain structs refs)) (log.map .row) (.change t key id (fs ++ gs ++ fks))

inductive JobsAt : List StoreJob → List StoreEvent → StoreStep → Prop
  | here {j js h s} : JobAt j h s → JobsAt (j :: js) h s
  | later {j js h id h' s} : JobDone j h id → JobsAt js h' s → JobsAt (j :: js) (h ++ h') s

/-! ### what can be written -/

/-- names, values and columns fit into statements. -/
def StoreJob.Fits : StoreJob → Prop
  | .insert m => Writable m ∧ allDistinct m
  | .update key id m => Writable m ∧ allDistinct m ∧ '`' ∉ key ∧ (setNames m).length + 1 < 2 ^ 16 ∧ Sendable id

mutual
/-- the number of models. -/
def models : ActiveModel → Nat
  | .mk _ _ _ _ refs => refsModels refs + 1

def refsModels : ActiveRefs → Nat
  | .nil => 0
  | .unset _ r => refsModels r
  | .set _ _ r => refsModels r
  | .insert _ m r => models m + refsModels r
end

/-- the number of models of the jobs. -/
def jobsModels (js : List StoreJob) : Nat :=
  (js.map fun j => match j with
    | .insert m => models m
    | .update _ _ m => models m).sum

end Verif.Spec

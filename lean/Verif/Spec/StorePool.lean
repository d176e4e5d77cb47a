import Verif.Spec.StoreMany

/-!
# Spec: tasks that share the connections of a pool and store models at the same time

Every task has a list of things to store.  For each of them it takes a connection that nobody holds —
which one is not determined — stores, and gives the connection back, also when storing failed.  So one
connection serves jobs of several tasks, and the jobs of a task are served on several connections.
-/

namespace Verif.Spec

/-- where a task is: the ids it has got, the connection it holds with the job it is doing and what is left
of it, and the jobs after that. -/
structure StoreTask where
  ids : List UInt64
  now : Option (Nat × StoreJob × Script UInt64)
  rest : List StoreJob

/-- a job that has ended: on which connection, for which task, and how. -/
structure Served where
  conn : Nat
  task : Nat
  job : StoreJob
  result : Except SqlError UInt64

/-- the tables, the tasks — an error ends a task —, who holds which connection, what happened, and the
jobs in the order in which they ended. -/
structure StorePool where
  rows : Tables
  task : Nat → Except SqlError StoreTask
  held : Nat → Option Nat
  hist : List (Nat × StoreEvent)
  served : List Served

namespace StorePool

def started (rows : Tables) (jobs : Nat → List StoreJob) : StorePool :=
  ⟨rows, fun i => .ok ⟨[], none, jobs i⟩, fun _ => none, [], []⟩

/-- the turn of task `i`: it takes connection `k` if it is about to take one and nobody holds this one; or
its next statement is executed or refused; or it gives its connection back. -/
def turn (S : SqlServer) (x : StorePool) (t : Nat × Nat) : StorePool :=
  match x.task t.1 with
  | .ok ⟨ids, none, j :: rest⟩ =>
    if x.held t.2 = none then
      { x with
        task := fun n => if n = t.1 then .ok ⟨ids, some (t.2, j, j.script), rest⟩ else x.task n
        held := fun n => if n = t.2 then some t.1 else x.held n }
    else x
  | .ok ⟨ids, some (k, j, .stmt s f), rest⟩ =>
    match S.refuses x.rows (S.after x.rows s) with
    | some e =>
      { x with
        task := fun n => if n = t.1 then .error e else x.task n
        held := fun n => if n = k then none else x.held n
        served := x.served ++ [⟨k, t.1, j, .error e⟩] }
    | none =>
      { x with
        rows := S.after x.rows s
        task := fun n => if n = t.1 then .ok ⟨ids, some (k, j, f (S.idOf x.rows s)), rest⟩ else x.task n
        hist := x.hist ++ [(t.1, S.event x.rows s)] }
  | .ok ⟨ids, some (k, j, .done id), rest⟩ =>
    { x with
      task := fun n => if n = t.1 then .ok ⟨ids ++ [id], none, rest⟩ else x.task n
      held := fun n => if n = k then none else x.held n
      served := x.served ++ [⟨k, t.1, j, .ok id⟩] }
  | _ => x

def go (S : SqlServer) (x : StorePool) (sched : List (Nat × Nat)) : StorePool := sched.foldl (turn S) x

/-- how task `i` ended: the ids it got, or the error; `none` if it has not. -/
def outcome (x : StorePool) (i : Nat) : Option (Except SqlError (List UInt64)) :=
  match x.task i with
  | .error e => some (.error e)
  | .ok ⟨ids, none, []⟩ => some (.ok ids)
  | _ => none

/-- the jobs served on connection `k`. -/
def servedOn (x : StorePool) (k : Nat) : List Served := x.served.filter fun s => s.conn = k

/-- the jobs served for task `i`. -/
def servedFor (x : StorePool) (i : Nat) : List Served := x.served.filter fun s => s.task = i

end StorePool

end Verif.Spec

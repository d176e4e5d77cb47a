import Verif.Model.AsyncRelease

/-!
# Spec: calls as futures

The operations on a connection, each as a program that is polled and as a function on the tape of what arrives.
-/

namespace Verif

/-- what was delivered is what was to come, up to the end of the stream being told again and again. -/
def Fits (tape rx rx' : List Rx) : Prop :=
  ∃ n, tape ++ rx' = rx ++ List.replicate n (.fault .unexpectedEof) ∧ (n ≠ 0 → rx' = [])

/-- the failure that would end the operation in which a program is suspended. -/
def Spot.rx (k : IoKind) : Spot → List Rx
  | .reading => [.fault k]
  | .writing _ => []

def Spot.wf (k : IoKind) : Spot → List (Option (Nat × IoKind))
  | .reading => []
  | .writing n => [some (n, k)]

/-! ### Running a program on given polls (for the examples) -/

/-- a loop of at most `n` turns. -/
def pollLoop {σ α : Type} (body : σ → Loc → List Poll → Option (Did × Ran (σ ⊕ α))) :
    Nat → σ → Loc → List Poll → Option (Did × Ran α)
  | 0, _, _, _ => none
  | n + 1, s, l, es =>
    match body s l es with
    | some (d, .done (.ok (.inl s')) l1 es1) =>
      match pollLoop body n s' l1 es1 with
      | some (d', r) => some (d.and d', r)
      | none => none
    | some (d, .done (.ok (.inr a)) l1 es1) => some (d, .done (.ok a) l1 es1)
    | some (d, .done (.err e) l1 es1) => some (d, .done (.err e) l1 es1)
    | some (d, .done .panic l1 es1) => some (d, .done .panic l1 es1)
    | some (d, .waiting w l1) => some (d, .waiting w l1)
    | none => none

/-- what a program does on these polls, if its loops make at most `n` turns. -/
def Code.poll (T n : Nat) : {α : Type} → Code α → Loc → List Poll → Option (Did × Ran α)
  | _, .out x => fun l es => some (.none, .done x l es)
  | _, .get => fun l es => some (.none, .done (.ok l) l es)
  | _, .modify f => fun l es => some (.none, .done (.ok ()) (f l) es)
  | _, .read k => fun l es =>
    match pollRead T es k 0 with
    | (.done r rest, tape, t) => some (⟨tape, [], [], t, 1⟩, .done (ioOut r) l rest)
    | (.waiting, tape, t) => some (⟨tape, [], [], t, 1⟩, .waiting .reading l)
  | _, .write bs => fun l es =>
    match pollWrite T es bs 0 with
    | (.done r rest, w, t) => some (⟨[], w, [writeEnd w r], t, 1⟩, .done (ioOut r) l rest)
    | (.waiting, w, t) => some (⟨[], w, [], t, 1⟩, .waiting (.writing w.length) l)
  | _, .bind m k => fun l es =>
    match m.poll T n l es with
    | some (d, .done (.ok b) l1 es1) =>
      match (k b).poll T n l1 es1 with
      | some (d', r) => some (d.and d', r)
      | none => none
    | some (d, .done (.err e) l1 es1) => some (d, .done (.err e) l1 es1)
    | some (d, .done .panic l1 es1) => some (d, .done .panic l1 es1)
    | some (d, .waiting w l1) => some (d, .waiting w l1)
    | none => none
  | _, .attempt m => fun l es =>
    match m.poll T n l es with
    | some (d, .done (.ok a) l1 es1) => some (d, .done (.ok (.ok a)) l1 es1)
    | some (d, .done (.err e) l1 es1) => some (d, .done (.ok (.error e)) l1 es1)
    | some (d, .done .panic l1 es1) => some (d, .done .panic l1 es1)
    | some (d, .waiting w l1) => some (d, .waiting w l1)
    | none => none
  | _, .loop body s => fun l es => pollLoop (fun s l es => (body s).poll T n l es) n s l es

namespace Spec

/-- the operations on a connection (`Library`, Spec/Interactive) other than `one`, with overflow checks and without. -/
inductive Future : {α : Type} → Code α → M α → Prop
  | connect (cr : Crypto) (alnum : Char → Bool) (fp : FloatParse) :
      Future (Async.connect cr alnum fp) (Verif.connect cr alnum fp)
  | disconnect : Future Async.disconnect Verif.disconnect
  | query (sql : Str) : Future (Async.query sql) (Verif.query sql)
  | executeQuery (sql : Str) : Future (Async.executeQuery sql) (Verif.executeQuery sql)
  | prepare (sql : Str) : Future (Async.prepareStatement sql) (prepareStatement sql)
  | stmtQuery (p : Prepared) (vs : List Value) : Future (Async.stmtQuery p vs) (p.query vs)
  | stmtExecute (p : Prepared) (vs : List Value) : Future (Async.stmtExecute p vs) (p.execute vs)
  | next {R : Type} (rd : RowReader R) (rs : RSet) : Future (Async.next rd rs) (rs.next rd)
  | collect {R : Type} (rd : RowReader R) (rs : RSet) : Future (Async.collect rd rs) (rs.collect rd)
  | finish {R : Type} (rd : RowReader R) (rs : RSet) : Future (Async.finish rd rs) (rs.finish rd)
  | insert (m : ActiveModel) : Future (Async.insert m) m.insert
  | update (id : Value) (primary : Str) (m : ActiveModel) : Future (Async.update id primary m) (m.update id primary)
  | migrator (debug : Bool) (fp : FloatParse) (ms : List MigList) :
      Future (Async.migratorOpen debug fp ms) (migratorOpen debug fp ms)
  | connectRel (cr : Crypto) (alnum : Char → Bool) (fp : FloatParse) :
      Future (Async.connectRel cr alnum fp) (Verif.connectRel cr alnum fp)
  | migratorRel (fp : FloatParse) (ms : List MigList) : Future (Async.migratorOpenRel fp ms) (migratorOpenRel fp ms)

/-- all of them. -/
inductive AnyFuture : {α : Type} → Code α → M α → Prop
  | call {α : Type} {p : Code α} {m : M α} : Future p m → AnyFuture p m
  | one {R : Type} (rd : RowReader R) (rs : RSet) : AnyFuture (Async.one rd rs) (rs.one rd)

end Spec

end Verif

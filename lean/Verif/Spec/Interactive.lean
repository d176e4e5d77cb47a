import Verif.Model.Auth
import Verif.Model.Active
import Verif.Model.MigratorWire
import Verif.Model.Release
import Verif.Spec.Commands

/-!
# Spec: a client and a server that wait for each other

In the model a connection comes with everything that will ever arrive.  Here what arrives depends on what the client
has written: a call is run on what has arrived so far; if it uses all of it up and needs more it waits, the server reads
what has been written, and some of what the server has sent by then is delivered.
-/

namespace Verif

/-- the same connection, on which more arrives. -/
def Conn.more (c : Conn) (zs : List Rx) : Conn := { c with rx := c.rx ++ zs }

/-- the failure of a read at the end of what has arrived. -/
abbrev eof : Error := .protocol (.io .unexpectedEof)

/-- everything that arrived has been used up, and more was needed: on an open connection, a call that waits. -/
def Dry {α : Type} (r : Out Error α × Conn) : Prop := r.1 = .err eof ∧ r.2.rx = []

/-- Bytes that arrive later change nothing of what was done before: what has been written stays written; and with more
to come the call ends in the same way, all that comes later unread, unless it had been waiting; then what it had written
stays the beginning of what it writes. -/
def Causal {α : Type} (m : M α) : Prop :=
  ∀ c, c.tx <+: (m c).2.tx ∧ ∀ zs, m (c.more zs) = ((m c).1, (m c).2.more zs) ∨
    (Dry (m c) ∧ (m c).2.tx <+: (m (c.more zs)).2.tx)

namespace Spec

/-- the operations on a connection; those that differ in a release build (Model/Release) in both ways. -/
inductive Library : {α : Type} → M α → Prop
  | connect (cr : Crypto) (alnum : Char → Bool) (fp : FloatParse) : Library (Verif.connect cr alnum fp)
  | disconnect : Library Verif.disconnect
  | query (sql : Str) : Library (Verif.query sql)
  | executeQuery (sql : Str) : Library (Verif.executeQuery sql)
  | prepare (sql : Str) : Library (prepareStatement sql)
  | stmtQuery (p : Prepared) (vs : List Value) : Library (p.query vs)
  | stmtExecute (p : Prepared) (vs : List Value) : Library (p.execute vs)
  | next {R : Type} (rd : RowReader R) (rs : RSet) : Library (rs.next rd)
  | collect {R : Type} (rd : RowReader R) (rs : RSet) : Library (rs.collect rd)
  | one {R : Type} (rd : RowReader R) (rs : RSet) : Library (rs.one rd)
  | finish {R : Type} (rd : RowReader R) (rs : RSet) : Library (rs.finish rd)
  | insert (m : ActiveModel) : Library m.insert
  | update (id : Value) (primary : Str) (m : ActiveModel) : Library (m.update id primary)
  | migrator (debug : Bool) (fp : FloatParse) (ms : List MigList) : Library (migratorOpen debug fp ms)
  | connectRel (cr : Crypto) (alnum : Char → Bool) (fp : FloatParse) : Library (Verif.connectRel cr alnum fp)
  | migratorRel (fp : FloatParse) (ms : List MigList) : Library (migratorOpenRel fp ms)

/-- a program that makes calls on one connection and goes on as it likes after each, also after an error. -/
inductive Client (α : Type) : Type 1
  | done (a : α)
  | call {β : Type} (m : M β) (k : Except Error β → Client α)

/-- it uses the connection through the library only. -/
def Client.Uses {α : Type} : Client α → Prop
  | .done _ => True
  | .call m k => Library m ∧ ∀ x, (k x).Uses

/-- run a program on what has arrived; a call that waits keeps the program waiting. -/
def Client.run {α : Type} : Client α → M α
  | .done a, c => (.ok a, c)
  | .call m k, c =>
    match m c with
    | (.ok b, c') => (k (.ok b)).run c'
    | (.err e, c') => if e = eof ∧ c'.rx = [] then (.err eof, c') else (k (.error e)).run c'
    | (.panic, c') => (.panic, c')

/-- a server: all it has sent once it has read these bytes. -/
abbrev Server := Bytes → List Rx

/-- what is sent is not taken back. -/
def Steady (srv : Server) : Prop := ∀ a b, a <+: b → srv a <+: srv b

/-- what may have arrived while `m` runs on `c`: any part of what the server sent after it had read what `m` wrote on
what had arrived before. -/
inductive Delivered {α : Type} (srv : Server) (m : M α) (c : Conn) : List Rx → Prop
  | nothing : Delivered srv m c []
  | more {zs zs' : List Rx} : Delivered srv m c zs → zs <+: zs' → zs' <+: srv (m (c.more zs)).2.tx →
      Delivered srv m c zs'

/-- a server that answers each command with one packet, as soon as it has read the command. -/
def answering (answer : Bytes → Bytes) : Server := fun s =>
  (readCommands s).flatMap fun p => (frames (UInt8.ofNat (frameCount p)) (answer p)).map .byte

end Spec

end Verif

import Verif.Model.Auth

/-!
# Histories of calls

The public operations of a connection as data, so that properties can speak about every history of
calls.  Results are dropped; a caller that uses an earlier result set is covered because `next`,
`collect`, `one` and `finish` take an arbitrary one.
-/

namespace Verif

/-- forget what an action returns. -/
def SM.void {σ ε α : Type} (m : SM σ ε α) : SM σ ε Unit := do
  let _ ← m
  pure ()

/-- a call on a connected connection. -/
inductive Call where
  | query (sql : Str)
  | executeQuery (sql : Str)
  | next (rd : RowReader Unit) (rs : RSet)
  | collect (rd : RowReader Unit) (rs : RSet)
  | one (rd : RowReader Unit) (rs : RSet)
  | finish (rd : RowReader Unit) (rs : RSet)
  | prepare (sql : Str)
  | stmtQuery (p : Prepared) (values : List Value)
  | stmtExecute (p : Prepared) (values : List Value)

def Call.run : Call → M Unit
  | .query sql => (Verif.query sql).void
  | .executeQuery sql => (Verif.executeQuery sql).void
  | .next rd rs => (rs.next rd).void
  | .collect rd rs => (rs.collect rd).void
  | .one rd rs => (rs.one rd).void
  | .finish rd rs => (rs.finish rd).void
  | .prepare sql => (prepareStatement sql).void
  | .stmtQuery p values => (p.query values).void
  | .stmtExecute p values => (p.execute values).void

/-- the connection after the calls; the caller goes on after an error. -/
def runCalls : List Call → Conn → Conn
  | [], c => c
  | x :: xs, c => runCalls xs (x.run c).2

end Verif

import Verif.Spec.Response

/-!
# Spec: what a server answers when a stored procedure is called

A prepared `CALL` (`CLIENT_PS_MULTI_RESULTS`) is answered by one result set for every `SELECT` in the procedure and one for
its `OUT` parameters, and an OK packet at the end. The packets are numbered through. Every result set but the last thing
says with a flag that more follows.
-/

namespace Verif.Spec

/-- `SERVER_MORE_RESULTS_EXISTS`, added to a status without it. -/
def moreResults : Nat := 8

/-- a result set: descriptions of its columns, packets of its rows. -/
structure Table where
  columns : List ColDesc
  rows : List Bytes

/-- the answer of a procedure that produces these result sets and ends with the OK packet `done`. -/
def callAnswer (status warnings : Nat) (done : Bytes) : List Table → List Bytes
  | [] => [done]
  | t :: ts => resultSet t.columns t.rows (status + moreResults) warnings ++ callAnswer status warnings done ts

end Verif.Spec

import Verif.Spec.Value
import Verif.Model.Types

/-!
# Spec: the types of the parameters in COM_STMT_EXECUTE

MySQL internals, `enum_field_types`; the second byte of a parameter type has its highest bit set for unsigned.
-/

namespace Verif.Spec

def boundType : Value → Nat × Bool
  | .null => (6, false)                 -- MYSQL_TYPE_NULL
  | .tiny _ => (1, false)               -- MYSQL_TYPE_TINY
  | .utiny _ => (1, true)
  | .short _ => (2, false)              -- MYSQL_TYPE_SHORT
  | .ushort _ => (2, true)
  | .int _ => (3, false)                -- MYSQL_TYPE_LONG
  | .uint _ => (3, true)
  | .long _ => (8, false)               -- MYSQL_TYPE_LONGLONG
  | .ulong _ => (8, true)
  | .float _ => (4, false)              -- MYSQL_TYPE_FLOAT
  | .double _ => (5, false)             -- MYSQL_TYPE_DOUBLE
  | .bytes _ => (253, false)            -- MYSQL_TYPE_VAR_STRING
  | .date .. => (10, false)             -- MYSQL_TYPE_DATE
  | .time .. => (11, false)             -- MYSQL_TYPE_TIME
  | .datetime .. => (12, false)         -- MYSQL_TYPE_DATETIME

/-- what a server is told about the types: after 10 bytes and the NULL bitmap, if there are parameters. -/
def readBound (n : Nat) (bs : Bytes) : Option (List (Nat × Bool)) :=
  if n = 0 then some [] else
    match bs.drop (10 + (n + 7) / 8) with
    | 1 :: bs => (readTypes n bs).map Prod.fst
    | _ => none

end Verif.Spec

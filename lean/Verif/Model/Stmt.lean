import Verif.Model.Value
import Verif.Model.Io

/-!
# Prepared statement requests

Mirrors `src/connection/packets/stmt_execute_request.rs`, `stmt_send_long_data.rs`,
`stmt_close.rs`.
-/

namespace Verif

/-- stmt_execute_request.rs 12-20; the constant fields `flags`, `iteration_count` and
`params_flags` are inlined into `serialize`. -/
structure ExecRequest where
  stmtId : UInt32
  bitmap : Bytes
  params : List Value
  asLongData : Bool
  deriving DecidableEq, Repr

namespace ExecRequest

/-- stmt_execute_request.rs 27-33: the loop over the parameters (bitmap and `data_len`). -/
def scan : Nat → List Value → Bytes → Nat → Out ε (Bytes × Nat)
  | _, [], bm, len => .ok (bm, len)
  | i, v :: vs, bm, len =>
    if v.binLen = 0 then do
      let bm ← NullBitmap.set true bm i true
      scan (i + 1) vs bm len
    else scan (i + 1) vs bm (len + v.binLen)

/-- stmt_execute_request.rs 23-47 `new`. -/
def new (id : UInt32) (params : List Value) : Out ε ExecRequest := do
  let (bm, dataLen) ← scan 0 params (NullBitmap.new true params.length) 0
  let totalLen := 10 + bm.length + 1 + params.length * 2 + dataLen
  pure { stmtId := id, bitmap := bm, params := params, asLongData := MAX_PAYLOAD_LEN < totalLen }

/-- stmt_execute_request.rs 66-75: type and flag byte of a parameter. -/
def paramType (v : Value) : Bytes :=
  [v.columnType.toByte, if v.isUnsigned then 128 else 0]

/-- stmt_execute_request.rs 77-83: value bytes of a parameter. -/
def paramBytes (asLongData : Bool) (v : Value) : Bytes :=
  match v with
  | .bytes _ => if !asLongData then v.serialize else []
  | .null => []
  | _ => v.serialize

/-- stmt_execute_request.rs 54-85 `serialize`. -/
def serialize (r : ExecRequest) : Bytes :=
  [Command.stmtExecute.toByte] ++ leBytes 4 r.stmtId.toNat ++ [0] ++ leBytes 4 1 ++
    (if r.params = [] then [] else r.bitmap ++ [1]) ++
    r.params.flatMap paramType ++
    r.params.flatMap (paramBytes r.asLongData)

end ExecRequest

/-- stmt_send_long_data.rs 22-29. -/
def longDataBytes (id : UInt32) (index : UInt16) (data : Bytes) : Bytes :=
  [Command.stmtSendLongData.toByte] ++ leBytes 4 id.toNat ++ leBytes 2 index.toNat ++ data

/-- stmt_close.rs 15-20 (not used by the connector itself). -/
def stmtCloseBytes (id : UInt32) : Bytes := [Command.stmtClose.toByte] ++ leBytes 4 id.toNat

end Verif

import Verif.Props.C06_LongData
import Verif.Proofs.Example
import Verif.Proofs.ResultSet

/-! # C17 — parameter count mismatches are refused locally -/

namespace Verif

/-- A wrong number of values: the parameter-count error, nothing sent, nothing read, no state
changed — whatever the state of the connection. -/
theorem C17_mismatch_refused (p : Prepared) (values : List Value) (c : Conn)
    (h : values.length ≠ p.params) :
    p.execute values c = (.err (.runtime .parameterCountMismatch), c) ∧
    p.query values c = (.err (.runtime .parameterCountMismatch), c) := by
  unfold Prepared.execute Prepared.query
  rw [if_pos h, if_pos h]
  exact ⟨rfl, rfl⟩

/-- With the right number the request is sent, whatever the server answers (`c.rx` is arbitrary):
commands from which a server gets exactly the values. -/
theorem C17_match_sent (p : Prepared) (values : List Value) (c : Conn)
    (h : values.length = p.params) (hn : p.params < 2 ^ 16)
    (hp : c.pendingResult = false) (hw : c.wfaults = [])
    (hb : ∀ b, .bytes b ∈ values → b.length < 2 ^ 64) :
    ∃ (long : List Bytes) (exec : Bytes) (st' : Spec.LongData),
      (p.execute values c).2.tx = c.tx ++ Spec.commands (long ++ [exec]) ∧
      (p.query values c).2.tx = c.tx ++ Spec.commands (long ++ [exec]) ∧
      Spec.longRun (fun _ _ => none) long = some st' ∧
      Spec.readExecute values.length (st' p.id.toNat) exec
        = some { stmtId := p.id.toNat, cursorType := 0, iterations := 1,
                 params := values.map Spec.meaning } := by
  obtain ⟨long, exec, st', h1, h2, h3, -⟩ := C06_params_reach_server p.id values c
    (fun _ _ => none) hp hw (by omega) hb (fun _ => rfl)
  refine ⟨long, exec, st', ?_, ?_, h2, h3⟩
  · unfold Prepared.execute
    rw [if_neg (by simp [h]), SM.bind_of_ok h1]
    exact ((readOnly_readResponse.bind fun r => readOnly_okOrServerError r) _).1
  · unfold Prepared.query
    rw [if_neg (by simp [h]), SM.bind_of_ok h1]
    exact (readOnly_read _).1

example (c : Conn) : Prepared.execute { id := 3, params := 2 } [.null] c
    = (.err (.runtime .parameterCountMismatch), c) :=
  (C17_mismatch_refused _ _ c (by decide)).1

example : (Prepared.execute { id := 3, params := 2 } [.null, .tiny 5] (exConn [])).2.tx
    = [17, 0, 0, 0, 0x17, 3, 0, 0, 0, 0, 1, 0, 0, 0, 1, 1, 6, 0, 1, 0, 5] := by decide +kernel

end Verif

import Verif.Proofs.Query
import Verif.Proofs.Stmt
import Verif.Spec.Server

/-! Helper lemmas: sending commands, long data. -/

namespace Verif

theorem chunksLoop_flatten (n : Nat) (hn : 0 < n) (fuel : Nat) (bs : Bytes) (h : bs.length ≤ fuel) :
    (chunksLoop n fuel bs).flatten = bs := by
  induction fuel generalizing bs with
  | zero =>
    have : bs = [] := List.length_eq_zero_iff.mp (by omega)
    subst this; rfl
  | succ fuel ih =>
    unfold chunksLoop
    by_cases hb : bs = []
    · rw [if_pos hb, hb]; rfl
    · rw [if_neg hb, List.flatten_cons, ih, List.take_append_drop]
      rw [List.length_drop]
      have : 0 < bs.length := List.length_pos_iff.mpr hb
      omega

theorem chunks_flatten (n : Nat) (hn : 0 < n) (bs : Bytes) : (chunks n bs).flatten = bs :=
  chunksLoop_flatten n hn _ bs (Nat.le_refl _)

theorem longDataPieces_bytes (b : Bytes) :
    longDataPieces (.bytes b) ≠ [] ∧ (longDataPieces (.bytes b)).flatten = b := by
  unfold longDataPieces
  by_cases hb : b = []
  · simp [hb]
  · simp only [hb, if_false]
    have h := chunks_flatten (MAX_PAYLOAD_LEN - 6) (by unfold MAX_PAYLOAD_LEN; omega) b
    refine ⟨fun hc => ?_, h⟩
    rw [hc] at h
    exact hb h.symm

/-- the commands that carry the long data of a parameter list. -/
def longCmds (id : UInt32) : Nat → List Value → List Bytes
  | _, [] => []
  | i, v :: vs =>
    (longDataPieces v).map (longDataBytes id (UInt16.ofNat i)) ++ longCmds id (i + 1) vs

theorem sendPieces_clean (id : UInt32) (i : Nat) (ps : List Bytes) (c : Conn)
    (hp : c.pendingResult = false) (hw : c.wfaults = []) :
    ∃ n, sendPieces id i ps c = (.ok (), { c with
      tx := c.tx ++ Spec.commands (ps.map (longDataBytes id (UInt16.ofNat i))), seqId := n }) := by
  induction ps generalizing c with
  | nil => exact ⟨c.seqId, by simp [sendPieces, Spec.commands]⟩
  | cons p ps ih =>
    unfold sendPieces
    rw [SM.bind_of_ok (writeCommand_clean _ c hp hw)]
    obtain ⟨n, hn⟩ := ih { c with
      tx := c.tx ++ Spec.frames 0 (longDataBytes id (UInt16.ofNat i) p),
      seqId := UInt8.ofNat (Spec.frameCount (longDataBytes id (UInt16.ofNat i) p)) } hp hw
    exact ⟨n, by rw [hn]; simp [Spec.commands]⟩

theorem commands_append (a b : List Bytes) :
    Spec.commands (a ++ b) = Spec.commands a ++ Spec.commands b := by
  simp [Spec.commands]

theorem sendLongData_clean (id : UInt32) (i : Nat) (vs : List Value) (c : Conn)
    (hp : c.pendingResult = false) (hw : c.wfaults = []) :
    ∃ n, sendLongData id i vs c = (.ok (), { c with
      tx := c.tx ++ Spec.commands (longCmds id i vs), seqId := n }) := by
  induction vs generalizing c i with
  | nil => exact ⟨c.seqId, by simp [sendLongData, longCmds, Spec.commands]⟩
  | cons v vs ih =>
    unfold sendLongData longCmds
    obtain ⟨m, hm⟩ := sendPieces_clean id i (longDataPieces v) c hp hw
    rw [SM.bind_of_ok hm]
    obtain ⟨n, hn⟩ := ih (i + 1) { c with
      tx := c.tx ++ Spec.commands ((longDataPieces v).map (longDataBytes id (UInt16.ofNat i))),
      seqId := m } hp hw
    exact ⟨n, by rw [hn]; simp [commands_append]⟩

/-- the commands of one statement execution. -/
def execCmds (id : UInt32) (vs : List Value) (r : ExecRequest) : List Bytes :=
  (if r.asLongData then longCmds id 0 vs else []) ++ [r.serialize]

theorem sendExecute_clean (id : UInt32) (vs : List Value) (c : Conn)
    (hp : c.pendingResult = false) (hw : c.wfaults = []) :
    ∃ r, ExecRequest.new (ε := Error) id vs = .ok r ∧
      sendExecute id vs c = (.ok (), { c with
        tx := c.tx ++ Spec.commands (execCmds id vs r),
        seqId := UInt8.ofNat (Spec.frameCount r.serialize) }) := by
  obtain ⟨bm, h1, -⟩ := ExecRequest.new_spec (ε := Error) id vs
  refine ⟨_, h1, ?_⟩
  unfold sendExecute execCmds
  rw [h1, SM.ofOut_ok_bind_apply]
  generalize decide (MAX_PAYLOAD_LEN < ExecRequest.totalLen vs) = b
  cases b with
  | false =>
    rw [if_neg (by simp), writeCommand_clean _ c hp hw]
    simp [Spec.commands]
  | true =>
    rw [if_pos rfl]
    obtain ⟨n, hn⟩ := sendLongData_clean id 0 vs c hp hw
    rw [SM.bind_of_ok hn, writeCommand_clean _ { c with
      tx := c.tx ++ Spec.commands (longCmds id 0 vs), seqId := n } hp hw]
    simp [Spec.commands]

end Verif

import Verif.Props.C95_Unseen
import Verif.Props.C07_BinLen
import Verif.Props.C19_Commands

/-!
# C96: commands and the packet limit of the server

The server says how long a command may be (`max_allowed_packet`), and the client asks for it when it connects (C57).
-/

namespace Verif

/-- commands a server with this limit takes. -/
def Spec.Fits (limit : Nat) (cmds : List Bytes) : Prop := ∀ q ∈ cmds, q.length ≤ limit

theorem chunksLoop_short (n fuel : Nat) (bs p : Bytes) (h : p ∈ chunksLoop n fuel bs) : p.length ≤ n := by
  induction fuel generalizing bs with
  | zero => cases h
  | succ fuel ih =>
    unfold chunksLoop at h
    split at h
    · cases h
    · rcases List.mem_cons.mp h with rfl | h
      · rw [List.length_take]; omega
      · exact ih _ h

theorem length_longDataBytes (id : UInt32) (i : UInt16) (p : Bytes) : (longDataBytes id i p).length = p.length + 7 := by
  unfold longDataBytes
  simp only [List.length_append, length_leBytes, List.length_cons, List.length_nil]
  omega

theorem longCmds_short (id : UInt32) (i : Nat) (vs : List Value) : Spec.Fits (2 ^ 24) (longCmds id i vs) := by
  induction vs generalizing i with
  | nil => intro q h; cases h
  | cons v vs ih =>
    intro q h
    unfold longCmds at h
    rcases List.mem_append.mp h with h | h
    · obtain ⟨p, h1, rfl⟩ := List.mem_map.mp h
      rw [length_longDataBytes]
      have : p.length ≤ MAX_PAYLOAD_LEN - 6 := by
        unfold longDataPieces at h1
        split at h1
        · split at h1
          · rw [List.mem_singleton.mp h1]; exact Nat.zero_le _
          · exact chunksLoop_short _ _ _ _ h1
        · cases h1
      have e : MAX_PAYLOAD_LEN = 16777215 := rfl
      omega
    · exact ih _ q h

theorem paramBytes_long (v : Value) : (ExecRequest.paramBytes true v).length ≤ 13 := by
  cases v with
  | null => exact Nat.zero_le _
  | bytes b => exact Nat.zero_le _
  | date y m d =>
    by_cases h : Value.date y m d = .date 0 0 0
    · rw [h]; decide
    · show (Value.date y m d).serialize.length ≤ 13
      rw [length_serialize h (by intro b h; cases h)]
      simp only [Value.binLen]
      split <;> omega
  | _ =>
    unfold ExecRequest.paramBytes
    dsimp only
    rw [length_serialize (by intro h; cases h) (by intro b h; cases h)]
    simp only [Value.binLen]
    repeat' split
    all_goals omega

theorem length_flatMap_le (vs : List Value) (f : Value → Bytes) (k : Nat) (h : ∀ v ∈ vs, (f v).length ≤ k) :
    (vs.flatMap f).length ≤ k * vs.length := by
  induction vs with
  | nil => exact Nat.zero_le _
  | cons v vs ih =>
    rw [List.flatMap_cons, List.length_append, List.length_cons, Nat.mul_succ]
    have := h v (List.mem_cons_self ..)
    have := ih fun v hv => h v (List.mem_cons_of_mem _ hv)
    omega

theorem length_flatMap_sum (vs : List Value) (f : Value → Bytes) (g : Value → Nat) (h : ∀ v ∈ vs, (f v).length ≤ g v) :
    (vs.flatMap f).length ≤ (vs.map g).sum := by
  induction vs with
  | nil => exact Nat.zero_le _
  | cons v vs ih =>
    rw [List.flatMap_cons, List.length_append, List.map_cons, List.sum_cons]
    have := h v (List.mem_cons_self ..)
    have := ih fun v hv => h v (List.mem_cons_of_mem _ hv)
    omega

/-- What holds: however large the parameters of a statement are, no command sent for it is longer than 16 MiB, so that a
server with that limit or a higher one takes them all. (The zero DATE is excluded because the client takes it for shorter than it is, C07; without
long data the bound holds up to 4 bytes for each of them.)

Missing: lower limits are not respected (`C96_params_violated`), and those of statements as text not at all
(`C96_text_violated`). -/
theorem C96_params_partial (id : UInt32) (vs : List Value) (c : Conn) (hp : c.pendingResult = false)
    (hw : c.wfaults = []) (hn : vs.length < 2 ^ 16) (hb : ∀ b, .bytes b ∈ vs → b.length < 2 ^ 64)
    (hz : .date 0 0 0 ∉ vs) (limit : Nat) (hl : 2 ^ 24 ≤ limit) :
    ∃ cmds, (sendExecute id vs c).1 = .ok () ∧ (sendExecute id vs c).2.tx = c.tx ++ Spec.commands cmds ∧
      Spec.Fits limit cmds := by
  obtain ⟨bm, h1, h3, -⟩ := ExecRequest.new_spec (ε := Error) id vs
  obtain ⟨r, h1', h2⟩ := sendExecute_clean id vs c hp hw
  rw [h1] at h1'
  injection h1' with h1'
  refine ⟨_, by rw [h2], by rw [h2], fun q hq => Nat.le_trans ?_ hl⟩
  unfold execCmds at hq
  rcases List.mem_append.mp hq with hq | hq
  · split at hq
    · exact longCmds_short id 0 vs q hq
    · cases hq
  · rw [List.mem_singleton.mp hq, ← h1']
    have e : MAX_PAYLOAD_LEN = 16777215 := rfl
    have htypes := length_flatMap_le vs ExecRequest.paramType 2 fun v _ => Nat.le_refl 2
    unfold ExecRequest.serialize
    simp only [List.length_append, length_leBytes, List.length_cons, List.length_nil]
    have hif : (if vs = [] then ([] : Bytes) else bm ++ [1]).length ≤ bm.length + 1 := by
      split
      · exact Nat.zero_le _
      · simp
    by_cases hlong : MAX_PAYLOAD_LEN < ExecRequest.totalLen vs
    · rw [decide_eq_true hlong]
      have := length_flatMap_le vs (ExecRequest.paramBytes true) 13 fun v _ => paramBytes_long v
      omega
    · rw [decide_eq_false hlong]
      have : (vs.flatMap (ExecRequest.paramBytes false)).length ≤ (vs.map Value.binLen).sum := by
        refine length_flatMap_sum vs _ _ fun v hv => ?_
        have k := length_serialize (v := v) (fun e => hz (e ▸ hv)) (fun b e => hb b (e ▸ hv))
        cases v with
        | null => exact Nat.zero_le _
        | _ => exact Nat.le_of_eq k
      unfold ExecRequest.totalLen at hlong
      omega

/-- **C96 is false**: statements as text are sent however long they are. -/
theorem C96_text_violated (c : Conn) (hp : c.pendingResult = false) (hw : c.wfaults = []) (sql : Str)
    (hlong : c.data.maxAllowedPacket ≤ (utf8 sql).length) :
    ∃ cmds, (executeQuery sql c).2.tx = c.tx ++ Spec.commands cmds ∧ (query sql c).2.tx = c.tx ++ Spec.commands cmds ∧
      ¬ Spec.Fits c.data.maxAllowedPacket cmds := by
  obtain ⟨h1, h2, -⟩ := C19_sent sql c hp hw
  refine ⟨[0x03 :: utf8 sql], ?_, ?_, fun h => ?_⟩
  · rw [h2]; simp [Spec.commands]
  · rw [h1]; simp [Spec.commands]
  · have := h _ (List.mem_singleton.mpr rfl)
    rw [List.length_cons] at this
    omega

/-- **And** a long parameter is sent in pieces of 16 MiB, whatever limit below that the server has. Such a piece is one byte
too long for a frame: 6 bytes were left for what comes before it, which are 7. -/
theorem C96_params_violated (p : Prepared) (hparams : p.params = 1) (b : Bytes) (hb : 2 ^ 24 ≤ b.length) (c : Conn)
    (hp : c.pendingResult = false) (hw : c.wfaults = []) (hl : c.data.maxAllowedPacket < 2 ^ 24) :
    ∃ cmds, (p.execute [.bytes b] c).2.tx = c.tx ++ Spec.commands cmds ∧
      ¬ Spec.Fits c.data.maxAllowedPacket cmds ∧
      ∃ q ∈ cmds, q.length = 2 ^ 24 ∧ Spec.frameCount q = 2 := by
  obtain ⟨r, h1, h2⟩ := sendExecute_clean p.id [.bytes b] c hp hw
  have hlong := C06_large_uses_long_data p.id [.bytes b] r h1 b (List.mem_singleton.mpr rfl) (by
    have e : MAX_PAYLOAD_LEN = 16777215 := rfl
    omega)
  have hq : ∃ q ∈ execCmds p.id [.bytes b] r, q.length = 2 ^ 24 := by
    refine ⟨longDataBytes p.id 0 (b.take (MAX_PAYLOAD_LEN - 6)), ?_, ?_⟩
    · unfold execCmds
      rw [if_pos hlong]
      refine List.mem_append_left _ ?_
      unfold longCmds
      refine List.mem_append_left _ (List.mem_map.mpr ⟨_, ?_, rfl⟩)
      unfold longDataPieces chunks
      dsimp only
      obtain ⟨x, xs, rfl⟩ : ∃ x xs, b = x :: xs := by
        cases b with
        | nil => simp at hb
        | cons x xs => exact ⟨x, xs, rfl⟩
      rw [if_neg (by simp), List.length_cons]
      unfold chunksLoop
      rw [if_neg (by simp)]
      exact List.mem_cons_self ..
    · rw [length_longDataBytes, List.length_take]
      have e : MAX_PAYLOAD_LEN = 16777215 := rfl
      omega
  obtain ⟨q, hq, hql⟩ := hq
  refine ⟨_, ?_, fun h => ?_, q, hq, hql, ?_⟩
  · unfold Prepared.execute
    rw [if_neg (by simp [hparams]), SM.bind_of_ok h2]
    have := (ReadOnly.bind readOnly_readResponse fun r => readOnly_okOrServerError r)
    exact (this _).1
  · have := h q hq
    omega
  · unfold Spec.frameCount
    rw [hql]
    rfl

/-- The limit is asked for but not used for anything: with another one, everything is the same. -/
theorem C96_ignored_violated {R : Type} (xs : List (Step R)) (c : Conn) (limit : Nat) :
    let c' := { c with data := { c.data with maxAllowedPacket := limit } }
    (runSteps xs c').1 = (runSteps xs c).1 ∧ (runSteps xs c').2.tx = (runSteps xs c).2.tx := by
  have := C95_session xs c { c with data := { c.data with maxAllowedPacket := limit } } ⟨rfl, rfl, rfl, rfl, rfl⟩ (.refl _)
  exact ⟨this.1, this.2.1.tx⟩

/-- a limit of 3 and a statement of 8 bytes. -/
theorem C96_example :
    let c := { exConn [7, 0, 0, 1, 0, 0, 0, 2, 0, 0, 0] with
      data := { (exConn []).data with maxAllowedPacket := 3 } }
    let r := executeQuery "select 1".toList c
    (∃ ok, r.1 = .ok ok) ∧ r.2.tx = [9, 0, 0, 0, 3] ++ utf8 "select 1".toList ∧
      ¬ Spec.Fits 3 [3 :: utf8 "select 1".toList] := by
  refine ⟨⟨okOf 0 0 2 0 [], by decide +kernel⟩, by decide +kernel, fun h => ?_⟩
  have := h _ (List.mem_singleton.mpr rfl)
  revert this
  decide

end Verif

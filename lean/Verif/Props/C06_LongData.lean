import Verif.Proofs.Command
import Verif.Proofs.Example

/-!
# C06 — parameters too large for one packet reach the server unchanged

The server is `Spec.longRun` (collecting long data, Verif/Spec/Server.lean) and
`Spec.readExecute` (Verif/Spec/Value.lean).
-/

namespace Verif

/-- one piece arrives at its place. -/
theorem longStep_spec (st : Spec.LongData) (id : UInt32) (i : Nat) (hi : i < 2 ^ 16) (data : Bytes) :
    Spec.longStep st (longDataBytes id (UInt16.ofNat i) data) = some fun id' i' =>
      if id' = id.toNat ∧ i' = i then some ((st id.toNat i).getD [] ++ data) else st id' i' := by
  unfold Spec.longStep longDataBytes
  simp only [List.append_assoc, List.cons_append, List.nil_append, Command.toByte]
  rw [spec_readInt_cons]
  simp only [Option.bind_eq_bind, Option.bind_some]
  rw [if_neg (by decide), spec_readInt_leBytes _ (by have := id.toNat_lt; omega)]
  simp only [Option.bind_some]
  rw [uint16_toNat_ofNat_of_lt hi, spec_readInt_leBytes _ (by omega)]
  rfl

theorem longRun_append (st : Spec.LongData) (a b : List Bytes) :
    Spec.longRun st (a ++ b) = (Spec.longRun st a).bind fun st' => Spec.longRun st' b := by
  induction a generalizing st with
  | nil => rfl
  | cons p a ih =>
    simp only [List.cons_append, Spec.longRun]
    cases Spec.longStep st p with
    | none => rfl
    | some st' => exact ih st'

/-- the pieces of one parameter. -/
theorem longRun_pieces (id : UInt32) (i : Nat) (hi : i < 2 ^ 16) (ps : List Bytes) (st : Spec.LongData)
    (hps : ps ≠ []) :
    Spec.longRun st (ps.map (longDataBytes id (UInt16.ofNat i))) = some fun id' i' =>
      if id' = id.toNat ∧ i' = i then some ((st id.toNat i).getD [] ++ ps.flatten) else st id' i' := by
  induction ps generalizing st with
  | nil => exact absurd rfl hps
  | cons p ps ih =>
    simp only [List.map_cons, Spec.longRun, longStep_spec st id i hi, Option.bind_eq_bind,
      Option.bind_some]
    by_cases h : ps = []
    · subst h; simp [Spec.longRun]
    · rw [ih _ h]
      congr 1
      funext id' i'
      by_cases hc : id' = id.toNat ∧ i' = i
      · simp [hc]
      · simp [hc]

theorem longRun_cmds (id : UInt32) (vs : List Value) (i : Nat) (h : i + vs.length ≤ 2 ^ 16)
    (st : Spec.LongData) (hst : ∀ j, i ≤ j → st id.toNat j = none) :
    ∃ st', Spec.longRun st (longCmds id i vs) = some st' ∧
      (∀ k, k ≠ id.toNat → st' k = st k) ∧
      (∀ j, j < i → st' id.toNat j = st id.toNat j) ∧
      ∀ j, st' id.toNat (i + j) = match vs[j]? with | some (.bytes b) => some b | _ => none := by
  induction vs generalizing i st with
  | nil => exact ⟨st, rfl, fun _ _ => rfl, fun _ _ => rfl, fun j => by simp [hst]⟩
  | cons v vs ih =>
    simp only [List.length_cons] at h
    unfold longCmds
    rw [longRun_append]
    by_cases hv : ∃ b, v = .bytes b
    · obtain ⟨b, rfl⟩ := hv
      obtain ⟨hne, hfl⟩ := longDataPieces_bytes b
      rw [longRun_pieces id i (by omega) _ st hne, hst i (Nat.le_refl _), hfl]
      simp only [Option.bind_some, Option.getD_none, List.nil_append]
      obtain ⟨st', h1, h2, h3, h4⟩ := ih (i + 1) (by omega)
        (fun id' i' => if id' = id.toNat ∧ i' = i then some b else st id' i')
        (fun j hj => by
          rw [if_neg (by omega)]; exact hst j (by omega))
      refine ⟨st', h1, ?_, ?_, ?_⟩
      · intro k hk
        rw [h2 k hk]
        funext i'
        rw [if_neg (by simp [hk])]
      · intro j hj
        rw [h3 j (by omega), if_neg (by omega)]
      · intro j
        cases j with
        | zero => rw [Nat.add_zero, h3 i (by omega)]; simp
        | succ j => rw [show i + (j + 1) = i + 1 + j by omega, h4 j]; simp
    · have e : longDataPieces v = [] := by
        cases v <;> first | rfl | exact absurd ⟨_, rfl⟩ hv
      rw [e]
      obtain ⟨st', h1, h2, h3, h4⟩ := ih (i + 1) (by omega) st (fun j hj => hst j (by omega))
      refine ⟨st', h1, h2, fun j hj => h3 j (by omega), fun j => ?_⟩
      cases j with
      | zero =>
        rw [Nat.add_zero, h3 i (by omega), hst i (Nat.le_refl _)]
        cases v <;> first | rfl | exact absurd ⟨_, rfl⟩ hv
      | succ j => rw [show i + (j + 1) = i + 1 + j by omega, h4 j]; simp

/-- Executing a statement with any parameters, small or large, on a connection without pending rows:
what is written is a sequence of long-data commands and one execute request, each framed from
sequence number 0, from which a server obtains exactly the given parameters.  The server may hold
long data of other statements, which stays untouched.  (A statement has at most 65535
parameters: the server announces their number in 16 bits.) -/
theorem C06_params_reach_server (id : UInt32) (vs : List Value) (c : Conn) (st : Spec.LongData)
    (hp : c.pendingResult = false) (hw : c.wfaults = []) (hn : vs.length < 2 ^ 16)
    (hb : ∀ b, .bytes b ∈ vs → b.length < 2 ^ 64) (hst : ∀ j, st id.toNat j = none) :
    ∃ (long : List Bytes) (exec : Bytes) (st' : Spec.LongData),
      sendExecute id vs c = (.ok (), { c with
        tx := c.tx ++ Spec.commands (long ++ [exec]),
        seqId := UInt8.ofNat (Spec.frameCount exec) }) ∧
      Spec.longRun st long = some st' ∧
      Spec.readExecute vs.length (st' id.toNat) exec
        = some { stmtId := id.toNat, cursorType := 0, iterations := 1,
                 params := vs.map Spec.meaning } ∧
      ∀ k, k ≠ id.toNat → st' k = st k := by
  obtain ⟨r, h1, h2⟩ := sendExecute_clean id vs c hp hw
  have h3 := ExecRequest.readExecute_spec id vs r hb h1
  obtain ⟨st', h4, h5, -, h6⟩ := longRun_cmds id vs 0 (by omega) st (fun j _ => hst j)
  unfold execCmds at h2
  cases hl : r.asLongData with
  | true =>
    rw [hl] at h2 h3
    refine ⟨_, _, st', h2, h4, ?_, h5⟩
    have e : ExecRequest.longOf true vs = st' id.toNat := by
      funext i
      have := h6 i
      rw [Nat.zero_add] at this
      rw [this]
      simp only [ExecRequest.longOf, if_true]
      cases vs[i]? with
      | none => rfl
      | some v => cases v <;> rfl
    rw [← e]; exact h3
  | false =>
    rw [hl] at h2 h3
    refine ⟨_, _, st, h2, rfl, ?_, fun _ _ => rfl⟩
    have e : ExecRequest.longOf false vs = st id.toNat := by
      funext i; simp [ExecRequest.longOf, hst]
    rw [← e]; exact h3

/-- Long data is used whenever the request would otherwise exceed one frame's payload. -/
theorem C06_large_uses_long_data (id : UInt32) (vs : List Value) (r : ExecRequest)
    (h : ExecRequest.new (ε := Error) id vs = .ok r) (b : Bytes) (hb : .bytes b ∈ vs)
    (hl : MAX_PAYLOAD_LEN ≤ b.length) : r.asLongData = true := by
  obtain ⟨bm, h1, -⟩ := ExecRequest.new_spec (ε := Error) id vs
  rw [h] at h1
  injection h1 with h1
  subst h1
  have key : b.length ≤ (vs.map Value.binLen).sum := by
    clear h
    induction vs with
    | nil => cases hb
    | cons v vs ih =>
      rw [List.map_cons, List.sum_cons]
      rcases List.mem_cons.mp hb with rfl | hb
      · have : b.length ≤ Value.binLen (.bytes b) := by
          unfold Value.binLen; simp only [lenencSliceLen]; omega
        omega
      · have := ih hb; omega
  simp only [decide_eq_true_eq]
  unfold ExecRequest.totalLen
  omega

-- two pieces, an empty string and a NULL, seen by the server (small pieces for the example)
example :
    (Spec.longRun (fun _ _ => none) [longDataBytes 9 0 [1, 2], longDataBytes 9 0 [3],
      longDataBytes 9 2 []]).map (fun st => [st 9 0, st 9 1, st 9 2, st 8 0])
      = some [some [1, 2, 3], none, some [], none] := by decide +kernel

-- what `execute` sends for one NULL and one string

example : (sendExecute 9 [.null, .bytes [104, 105]] (exConn [])).2.tx
    = [19, 0, 0, 0, 0x17, 9, 0, 0, 0, 0, 1, 0, 0, 0, 1, 1, 6, 0, 0xFD, 0, 2, 104, 105] := by decide +kernel

example (x : UInt8) : ∃ r, ExecRequest.new (ε := Error) 9 [.bytes (List.replicate 16777215 x)] = .ok r ∧
    r.asLongData = true := by
  obtain ⟨bm, h, -⟩ := ExecRequest.new_spec (ε := Error) 9 [.bytes (List.replicate 16777215 x)]
  exact ⟨_, h, C06_large_uses_long_data 9 _ _ h _ (List.mem_singleton.mpr rfl)
    (by rw [List.length_replicate]; decide)⟩

end Verif

import Verif.Proofs.Dialog
import Verif.Props.C12_Iteration
import Verif.Props.C18_Prepare

/-!
# C56 — a response always answers the command that was sent

A history is a list of steps (a command and any use of its result: rows read one by one or all at
once, a result set dropped with rows outstanding, rows that cannot be decoded, calls that fail before
anything is sent), each with the packets the server sends for it.  The server answers commands in
order, so the stream carries the answers one after the other.

Without failures of the stream every step shows the caller exactly what it would show on a connection
that receives nothing but the answer to this very command.  After a timeout this is false.
-/

namespace Verif

/-- a server's answer to the command of a step. -/
def Step.Answered {R : Type} : Step R → List Bytes → Prop
  | .query _ _ _, ps | .stmtQuery _ _ _ _, ps => Spec.Verdict ps ∨ Spec.Rows ps
  | .executeQuery _, ps | .stmtExecute _ _, ps => Spec.Verdict ps
  | .prepare _, ps => Spec.PrepareAnswer ps

/-- the bytes the server sends for a step: nothing if there was no command. -/
def Step.wire {R : Type} (x : Step R) (ps : List Bytes) : List Rx :=
  match x.request with
  | some q => rxOf (Spec.framesAll (UInt8.ofNat (Spec.frameCount q)) ps)
  | none => []

theorem useResult_left {R : Type} (c : Conn) (rd : RowReader R) (ts : List Take) (ps : List Bytes)
    (h : Spec.Verdict ps ∨ Spec.Rows ps) (n : UInt8) :
    ∃ seen : Seen R, ∀ (send : M Unit) (c0 : Conn) (tx : Bytes) (r : List Rx),
      send c0 = (.ok (), c.spot tx n ps false r) →
      ∃ s' left' pend', useResult rd ts (send >>= fun _ => RSet.read) c0
          = (seen, c.spot tx s' left' pend' r) ∧ Left left' pend' := by
  obtain ⟨b, s1, left1, pend1, h1, h2, h3⟩ := read_acts c n ps h
  cases b with
  | ok rs =>
    obtain ⟨b2, s2, left2, pend2, k1, k2⟩ := takeAll_acts c rd ts rs s1 left1 pend1 (h3 rs rfl)
    refine ⟨.result (.ok rs) b2, fun send c0 tx r hs => ⟨s2, left2, pend2, ?_, k2⟩⟩
    unfold useResult
    rw [SM.bind_of_ok hs, h1 tx r]
    dsimp only
    rw [k1 tx r]
  | err e =>
    refine ⟨.result (.err e) [], fun send c0 tx r hs => ⟨s1, left1, pend1, ?_, h2⟩⟩
    unfold useResult
    rw [SM.bind_of_ok hs, h1 tx r]
  | panic =>
    refine ⟨.result .panic [], fun send c0 tx r hs => ⟨s1, left1, pend1, ?_, h2⟩⟩
    unfold useResult
    rw [SM.bind_of_ok hs, h1 tx r]

/-- the part of `prepareStatement` that reads the answer. -/
theorem prepare_left (c : Conn) (hw : c.wfaults = []) (sql : Str) (ps : List Bytes)
    (h : Spec.PrepareAnswer ps) :
    ∃ o, ∀ tx s left pend r, Left left pend → ∃ tx' s',
      prepareStatement sql (c.spot tx s left pend
        (rxOf (Spec.framesAll (UInt8.ofNat (Spec.frameCount (0x16 :: utf8 sql))) ps) ++ r))
      = (o, c.spot tx' s' [] false r) := by
  rcases h with ⟨t, rfl⟩ | ⟨id, columns, params, warnings, defs, hd, rfl⟩
  · cases he : runP (ErrPacket.deserialize c.data.capabilities) (0xFF :: t) with
    | ok e =>
      refine ⟨.err (.server e), fun tx s left pend r hl => ?_⟩
      obtain ⟨tx', h1⟩ := executeCommand_left c hw .stmtPrepare (utf8 sql) tx s left pend
        [0xFF :: t] r hl
      rw [show Command.stmtPrepare.toByte = 0x16 from rfl] at h1
      refine ⟨tx', UInt8.ofNat (Spec.frameCount (0x16 :: utf8 sql))
        + UInt8.ofNat (Spec.frameCount (0xFF :: t)), ?_⟩
      unfold prepareStatement
      rw [SM.bind_of_ok h1, SM.bind_of_ok (Acts.readPacket c _ _ [] false tx' r), SM.get_bind_apply]
      dsimp only
      rw [if_neg (by decide), if_pos rfl, he]
      rfl
    | err e =>
      refine ⟨.err (.protocol e), fun tx s left pend r hl => ?_⟩
      obtain ⟨tx', h1⟩ := executeCommand_left c hw .stmtPrepare (utf8 sql) tx s left pend
        [0xFF :: t] r hl
      rw [show Command.stmtPrepare.toByte = 0x16 from rfl] at h1
      refine ⟨tx', UInt8.ofNat (Spec.frameCount (0x16 :: utf8 sql))
        + UInt8.ofNat (Spec.frameCount (0xFF :: t)), ?_⟩
      unfold prepareStatement
      rw [SM.bind_of_ok h1, SM.bind_of_ok (Acts.readPacket c _ _ [] false tx' r), SM.get_bind_apply]
      dsimp only
      rw [if_neg (by decide), if_pos rfl, he]
      rfl
    | panic =>
      refine ⟨.panic, fun tx s left pend r hl => ?_⟩
      obtain ⟨tx', h1⟩ := executeCommand_left c hw .stmtPrepare (utf8 sql) tx s left pend
        [0xFF :: t] r hl
      rw [show Command.stmtPrepare.toByte = 0x16 from rfl] at h1
      refine ⟨tx', UInt8.ofNat (Spec.frameCount (0x16 :: utf8 sql))
        + UInt8.ofNat (Spec.frameCount (0xFF :: t)), ?_⟩
      unfold prepareStatement
      rw [SM.bind_of_ok h1, SM.bind_of_ok (Acts.readPacket c _ _ [] false tx' r), SM.get_bind_apply]
      dsimp only
      rw [if_neg (by decide), if_pos rfl, he]
      rfl
  · refine ⟨.ok { id := id, params := params.toNat }, fun tx s left pend r hl => ?_⟩
    obtain ⟨tx', h1⟩ := executeCommand_left c hw .stmtPrepare (utf8 sql) tx s left pend
      (Spec.stmtOk id.toNat columns.toNat params.toNat warnings.toNat :: defs) r hl
    rw [show Command.stmtPrepare.toByte = 0x16 from rfl] at h1
    have h2 := stmt_spec id columns params warnings []
    rw [List.append_nil] at h2
    obtain ⟨t, et⟩ : ∃ t, Spec.stmtOk id.toNat columns.toNat params.toNat warnings.toNat = 0 :: t :=
      ⟨_, rfl⟩
    rw [et] at h1 h2 ⊢
    obtain ⟨s', h3⟩ := skipPackets_acts c _ (UInt8.ofNat (Spec.frameCount (0x16 :: utf8 sql))
        + UInt8.ofNat (Spec.frameCount (0 :: t))) defs false hd.symm
    refine ⟨tx', s', ?_⟩
    unfold prepareStatement
    rw [SM.bind_of_ok h1, SM.bind_of_ok (Acts.readPacket c _ _ defs false tx' r), SM.get_bind_apply]
    dsimp only
    rw [if_pos rfl, h2]
    unfold liftP
    rw [Out.mapErr_ok, SM.ofOut_ok_bind_apply]
    dsimp only
    have h4 := h3 tx' r
    rw [SM.bind_of_ok h4]
    rfl

theorem execute_left (c : Conn) (ps : List Bytes) (h : Spec.Verdict ps) (n : UInt8) :
    ∃ o, ∀ (send : M Unit) (c0 : Conn) (tx : Bytes) (r : List Rx),
      send c0 = (.ok (), c.spot tx n ps false r) →
      ∃ s', (send >>= fun _ => readResponse >>= okOrServerError) c0
          = (o, c.spot tx s' [] false r) := by
  obtain ⟨b, t, rfl, -⟩ := h
  obtain ⟨o, s', h1⟩ := readResponse_acts c (b :: t) n false
  refine ⟨o, fun send c0 tx r hs => ⟨s', ?_⟩⟩
  rw [SM.bind_of_ok hs]
  exact h1 tx r

/-- one step, wherever it happens. -/
theorem step_left {R : Type} (c : Conn) (hw : c.wfaults = []) (x : Step R) (ps : List Bytes)
    (h : x.Answered ps) :
    ∃ seen, ∀ tx s left pend r, Left left pend → ∃ tx' s' left' pend',
      x.run (c.spot tx s left pend (x.wire ps ++ r)) = (seen, c.spot tx' s' left' pend' r) ∧
      Left left' pend' := by
  cases x with
  | query sql rd ts =>
    obtain ⟨seen, h1⟩ := useResult_left c rd ts ps h
      (UInt8.ofNat (Spec.frameCount (0x03 :: utf8 sql)))
    refine ⟨seen, fun tx s left pend r hl => ?_⟩
    obtain ⟨tx', h2⟩ := executeCommand_left c hw .query (utf8 sql) tx s left pend ps r hl
    rw [show Command.query.toByte = 0x03 from rfl] at h2
    obtain ⟨s', left', pend', h3, h4⟩ := h1 _ _ _ _ h2
    exact ⟨tx', s', left', pend', h3, h4⟩
  | executeQuery sql =>
    obtain ⟨o, h1⟩ := execute_left c ps h (UInt8.ofNat (Spec.frameCount (0x03 :: utf8 sql)))
    refine ⟨.done o, fun tx s left pend r hl => ?_⟩
    obtain ⟨tx', h2⟩ := executeCommand_left c hw .query (utf8 sql) tx s left pend ps r hl
    rw [show Command.query.toByte = 0x03 from rfl] at h2
    obtain ⟨s', h3⟩ := h1 _ _ _ _ h2
    refine ⟨tx', s', [], false, ?_, Or.inl ⟨rfl, rfl⟩⟩
    have h4 : Verif.executeQuery sql (c.spot tx s left pend
        (rxOf (Spec.framesAll (UInt8.ofNat (Spec.frameCount (0x03 :: utf8 sql))) ps) ++ r))
        = (o, c.spot tx' s' [] false r) := h3
    unfold Step.run Step.wire Step.request
    dsimp only
    rw [h4]
  | prepare sql =>
    obtain ⟨o, h1⟩ := prepare_left c hw sql ps h
    refine ⟨.prepared o, fun tx s left pend r hl => ?_⟩
    obtain ⟨tx', s', h2⟩ := h1 tx s left pend r hl
    refine ⟨tx', s', [], false, ?_, Or.inl ⟨rfl, rfl⟩⟩
    unfold Step.run Step.wire Step.request
    dsimp only
    rw [h2]
  | stmtQuery p values rd ts =>
    by_cases hn : values.length ≠ p.params
    · refine ⟨.result (.err (.runtime .parameterCountMismatch)) [], fun tx s left pend r hl => ?_⟩
      refine ⟨tx, s, left, pend, ?_, hl⟩
      have hq : (Step.stmtQuery p values rd ts : Step R).wire ps = [] := by
        unfold Step.wire Step.request; dsimp only; rw [if_pos hn]
      rw [hq]
      unfold Step.run useResult Prepared.query
      dsimp only
      rw [if_pos hn]
      rfl
    · obtain ⟨req, hreq⟩ : ∃ req, ExecRequest.new (ε := Error) p.id values = .ok req :=
        let ⟨_, hreq, _⟩ := ExecRequest.new_spec (ε := Error) p.id values
        ⟨_, hreq⟩
      obtain ⟨seen, h1⟩ := useResult_left c rd ts ps h
        (UInt8.ofNat (Spec.frameCount req.serialize))
      refine ⟨seen, fun tx s left pend r hl => ?_⟩
      obtain ⟨tx', h2⟩ := sendExecute_left c hw p.id values req hreq tx s left pend ps r hl
      obtain ⟨s', left', pend', h3, h4⟩ := h1 _ _ _ _ h2
      refine ⟨tx', s', left', pend', ?_, h4⟩
      have hwire : (Step.stmtQuery p values rd ts : Step R).wire ps
          = rxOf (Spec.framesAll (UInt8.ofNat (Spec.frameCount req.serialize)) ps) := by
        unfold Step.wire Step.request; dsimp only; rw [if_neg hn, hreq]
      rw [hwire]
      unfold Step.run
      have h5 : p.query values = (sendExecute p.id values >>= fun _ => RSet.read) := by
        unfold Prepared.query; rw [if_neg hn]
      dsimp only
      rw [h5]
      exact h3
  | stmtExecute p values =>
    by_cases hn : values.length ≠ p.params
    · refine ⟨.done (.err (.runtime .parameterCountMismatch)), fun tx s left pend r hl => ?_⟩
      refine ⟨tx, s, left, pend, ?_, hl⟩
      have hq : (Step.stmtExecute p values : Step R).wire ps = [] := by
        unfold Step.wire Step.request; dsimp only; rw [if_pos hn]
      rw [hq]
      unfold Step.run Prepared.execute
      dsimp only
      rw [if_pos hn]
      rfl
    · obtain ⟨req, hreq⟩ : ∃ req, ExecRequest.new (ε := Error) p.id values = .ok req :=
        let ⟨_, hreq, _⟩ := ExecRequest.new_spec (ε := Error) p.id values
        ⟨_, hreq⟩
      obtain ⟨o, h1⟩ := execute_left c ps h (UInt8.ofNat (Spec.frameCount req.serialize))
      refine ⟨.done o, fun tx s left pend r hl => ?_⟩
      obtain ⟨tx', h2⟩ := sendExecute_left c hw p.id values req hreq tx s left pend ps r hl
      obtain ⟨s', h3⟩ := h1 _ _ _ _ h2
      refine ⟨tx', s', [], false, ?_, Or.inl ⟨rfl, rfl⟩⟩
      have hwire : (Step.stmtExecute p values : Step R).wire ps
          = rxOf (Spec.framesAll (UInt8.ofNat (Spec.frameCount req.serialize)) ps) := by
        unfold Step.wire Step.request; dsimp only; rw [if_neg hn, hreq]
      rw [hwire]
      unfold Step.run
      have h5 : p.execute values
          = (sendExecute p.id values >>= fun _ => readResponse >>= okOrServerError) := by
        unfold Prepared.execute; rw [if_neg hn]
      dsimp only
      rw [h5, h3]

/-- the same from any point at which an answer may be left over. -/
theorem answers_left {R : Type} (c : Conn) (hp : c.pendingResult = false) (hw : c.wfaults = [])
    (hist : List (Step R × List Bytes)) (h : ∀ x ∈ hist, x.1.Answered x.2) (r : List Rx)
    (tx : Bytes) (s : UInt8) (left : List Bytes) (pend : Bool) (hl : Left left pend) :
    (runSteps (hist.map Prod.fst)
        (c.spot tx s left pend ((hist.map fun x => x.1.wire x.2).flatten ++ r))).1
      = hist.map fun x => (x.1.run { c with rx := x.1.wire x.2 }).1 := by
  have alone : ∀ x ∈ hist, ∀ tx s left pend r, Left left pend → ∃ tx' s' left' pend',
      x.1.run (c.spot tx s left pend (x.1.wire x.2 ++ r))
        = ((x.1.run { c with rx := x.1.wire x.2 }).1, c.spot tx' s' left' pend' r) ∧
      Left left' pend' := by
    intro x hx
    obtain ⟨seen, h1⟩ := step_left c hw x.1 x.2 (h x hx)
    obtain ⟨_, _, _, _, h2, -⟩ := h1 c.tx c.seqId [] false [] (Or.inl ⟨rfl, rfl⟩)
    have e : c.spot c.tx c.seqId [] false (x.1.wire x.2 ++ []) = { c with rx := x.1.wire x.2 } := by
      simp [Conn.spot, Spec.framesAll, rxOf, hp]
    rw [e] at h2
    rw [h2]
    exact h1
  have key : ∀ (hist : List (Step R × List Bytes)),
      (∀ x ∈ hist, ∀ tx s left pend r, Left left pend → ∃ tx' s' left' pend',
        x.1.run (c.spot tx s left pend (x.1.wire x.2 ++ r))
          = ((x.1.run { c with rx := x.1.wire x.2 }).1, c.spot tx' s' left' pend' r) ∧
        Left left' pend') →
      ∀ tx s left pend, Left left pend →
      (runSteps (hist.map Prod.fst)
        (c.spot tx s left pend ((hist.map fun x => x.1.wire x.2).flatten ++ r))).1
        = hist.map fun x => (x.1.run { c with rx := x.1.wire x.2 }).1 := by
    intro hist
    induction hist with
    | nil => intros; rfl
    | cons x hist ih =>
      intro ha tx s left pend hl
      obtain ⟨tx', s', left', pend', h1, h2⟩ := ha x (by simp) tx s left pend
        ((hist.map fun x => x.1.wire x.2).flatten ++ r) hl
      rw [List.map_cons, List.map_cons, List.map_cons, List.flatten_cons, List.append_assoc]
      unfold runSteps
      rw [h1]
      dsimp only
      rw [ih (fun y hy => ha y (by simp [hy])) tx' s' left' pend' h2]
  exact key hist alone tx s left pend hl

/-- **C56**, without failures of the stream: in every history of commands and uses of their results,
each step shows what it shows on a connection that receives only the answer to its own command. -/
theorem C56_answers_partial {R : Type} (c : Conn) (hp : c.pendingResult = false) (hw : c.wfaults = [])
    (hist : List (Step R × List Bytes)) (h : ∀ x ∈ hist, x.1.Answered x.2) (r : List Rx)
    (hrx : c.rx = (hist.map fun x => x.1.wire x.2).flatten ++ r) :
    (runSteps (hist.map Prod.fst) c).1
      = hist.map fun x => (x.1.run { c with rx := x.1.wire x.2 }).1 := by
  have e : c = c.spot c.tx c.seqId [] false ((hist.map fun x => x.1.wire x.2).flatten ++ r) := by
    rw [← hrx]
    cases c
    simp only at hp
    subst hp
    rfl
  have h1 := answers_left c hp hw hist h r c.tx c.seqId [] false (Or.inl ⟨rfl, rfl⟩)
  rwa [← e] at h1

/-! ### concrete histories -/

/-- an OK packet reporting `n` affected rows. -/
def C56.okRows (n : Nat) : Bytes := Spec.okPacket n 0 2 0 []

/-- a text result set with one column (code 3, a 32 bit number) and two rows. -/
def C56.numbers : List Bytes :=
  Spec.resultSet
    [{ db := [], table := [], orgTable := [], name := "n".toList, orgName := "n".toList,
       charset := 63, length := 11, code := 3, flags := 0, decimals := 0 }]
    [[0x01, 0x37], [0x01, 0x38]] 2 0

/-- floats do not occur in the examples. -/
def C56.noFloats : FloatParse := { f32 := fun _ => none, f64 := fun _ => none }

/-- a query of which one row is read, a statement execution, a query whose rows are all read. -/
def C56.hist : List (Step (List Value) × List Bytes) :=
  [(.query "a".toList (textReader C56.noFloats mkPlain) [.next], C56.numbers),
   (.stmtExecute { id := 1, params := 1 } [], [C56.okRows 5]),
   (.executeQuery "b".toList, [C56.okRows 7]),
   (.query "c".toList (textReader C56.noFloats mkPlain) [.collect, .next], C56.numbers)]

/-- the connection that receives these answers. -/
def C56.conn : Conn :=
  { exConn [] with rx := (C56.hist.map fun x => x.1.wire x.2).flatten }

/-- the rows of the abandoned result are not taken for an answer to the following commands. -/
example : ((runSteps (C56.hist.map Prod.fst) C56.conn).1.map fun x => match x with
      | .result _ gots => gots.map fun g => match g with
        | .ok (.row (some r)) => [r]
        | .ok (.rows rs) => rs
        | _ => []
      | .done (.ok ok) => [[[.ulong ok.affectedRows]]]
      | _ => [])
    = [[[[.int 7]]], [], [[[.ulong 7]]], [[[.int 7], [.int 8]], []]] := by decide +kernel

/-- **C56 is false after a timeout**: the answer to the first command arrives after the timeout has
fired and is reported as the result of the second command (one row affected instead of two). -/
theorem C56_answers_violated :
    let c := { exConn [] with
      rx := Rx.fault .timedOut :: rxOf (Spec.frames 1 (C56.okRows 1) ++ Spec.frames 1 (C56.okRows 2)) }
    (executeQuery "a".toList c).1 = .err (.protocol (.io .timedOut)) ∧
    ∃ ok, (executeQuery "b".toList (executeQuery "a".toList c).2).1 = .ok ok ∧ ok.affectedRows = 1 := by
  refine ⟨by decide +kernel, { affectedRows := 1, lastInsertId := 0, status := 2, warnings := 0,
                               message := none, sessionStateInfo := none }, by decide +kernel, rfl⟩

end Verif

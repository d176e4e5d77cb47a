import Verif.Model.PoolConn
import Verif.Props.C38_Pool
import Verif.Props.C56_Dialog
import Verif.Props.C57_Settings

/-!
# C85 — the users of a pool do not see each other's results

A history of a pool of connections: requests, creations, items taken and returned, in any order, and uses of
the connections by whoever holds them, with what the server sends for each.
-/

namespace Verif

/-- who uses which connection is decided by the pool: the uses of a history with the connection. -/
def Pool.uses {R : Type} (N : Nat) (p : Pool) :
    List (ServiceEv R × List Bytes) → Option (List (Nat × Step R × List Bytes))
  | [] => some []
  | (.pool e, _) :: es => (p.step N e).bind fun p' => Pool.uses N p' es
  | (.use r x, ps) :: es => (p.held r).bind fun i => (Pool.uses N p es).map fun us => (i, x, ps) :: us

/-- the answers that arrive on connection `i`, in order. -/
def arriving {R : Type} (i : Nat) (us : List (Nat × Step R × List Bytes)) : List Rx :=
  ((us.filter fun u => decide (u.1 = i)).map fun u => u.2.1.wire u.2.2).flatten

/-- what a use shows on a connection that receives nothing but the answer to it. -/
def aloneOn {R : Type} (init : Nat → Conn) (u : Nat × Step R × List Bytes) : Seen R :=
  (u.2.1.run { init u.1 with rx := u.2.1.wire u.2.2 }).1

theorem service_from {R : Type} (N : Nat) (init : Nat → Conn) (hp : ∀ i, (init i).pendingResult = false)
    (hw : ∀ i, (init i).wfaults = []) (hist : List (ServiceEv R × List Bytes)) (p : Pool)
    (us : List (Nat × Step R × List Bytes)) (hu : p.uses N hist = some us)
    (ha : ∀ u ∈ us, u.2.1.Answered u.2.2) (conns : Nat → Conn)
    (hc : ∀ i, ∃ tx s left pend r, conns i = (init i).spot tx s left pend (arriving i us ++ r) ∧ Left left pend) :
    ∃ s, Service.run N ⟨p, conns⟩ (hist.map Prod.fst) = some (s, us.map (aloneOn init)) := by
  induction hist generalizing p us conns with
  | nil =>
    cases hu
    exact ⟨_, rfl⟩
  | cons e hist ih =>
    obtain ⟨e, ps⟩ := e
    rw [List.map_cons, Service.run]
    cases e with
    | pool e =>
      rw [Pool.uses] at hu
      obtain ⟨p', h1, h2⟩ := Option.bind_eq_some_iff.1 hu
      obtain ⟨s, h3⟩ := ih p' us h2 ha conns hc
      refine ⟨s, ?_⟩
      dsimp only [Service.step]
      rw [h1, Option.map_some, Option.bind_some]
      dsimp only
      rw [h3, Option.map_some]
      rfl
    | use r x =>
      rw [Pool.uses] at hu
      obtain ⟨i, h1, h2⟩ := Option.bind_eq_some_iff.1 hu
      obtain ⟨us', h3, rfl⟩ := Option.map_eq_some_iff.1 h2
      obtain ⟨tx, s0, left, pend, r0, hi, hl⟩ := hc i
      have harr : arriving i ((i, x, ps) :: us') = x.wire ps ++ arriving i us' := by
        unfold arriving
        rw [List.filter_cons_of_pos (by simp)]
        rfl
      rw [harr, List.append_assoc] at hi
      obtain ⟨seen, h4⟩ := step_left (init i) (hw i) x ps (ha _ (List.mem_cons_self ..))
      obtain ⟨tx', s', left', pend', h5, h6⟩ := h4 tx s0 left pend (arriving i us' ++ r0) hl
      have hal : aloneOn init (i, x, ps) = seen := by
        obtain ⟨_, _, _, _, h7, -⟩ := h4 (init i).tx (init i).seqId [] false [] (Or.inl ⟨rfl, rfl⟩)
        have e : (init i).spot (init i).tx (init i).seqId [] false (x.wire ps ++ []) =
            { init i with rx := x.wire ps } := by
          simp [Conn.spot, Spec.framesAll, rxOf, hp i]
        rw [e] at h7
        unfold aloneOn
        dsimp only
        rw [h7]
      obtain ⟨s, h8⟩ := ih p us' h3 (fun u hu => ha u (List.mem_cons_of_mem _ hu))
        (fun j => if j = i then (init i).spot tx' s' left' pend' (arriving i us' ++ r0) else conns j) (fun j => by
          by_cases hj : j = i
          · subst hj
            rw [if_pos rfl]
            exact ⟨tx', s', left', pend', r0, rfl, h6⟩
          · rw [if_neg hj]
            obtain ⟨a, b, c, d, e, f, g⟩ := hc j
            refine ⟨a, b, c, d, e, ?_, g⟩
            rw [f]
            have : arriving j ((i, x, ps) :: us') = arriving j us' := by
              unfold arriving
              rw [List.filter_cons_of_neg (by simpa using fun h => hj h.symm)]
            rw [this])
      refine ⟨s, ?_⟩
      dsimp only [Service.step]
      rw [h1, Option.map_some, Option.bind_some, hi, h5]
      dsimp only
      rw [h8, Option.map_some, List.map_cons, hal]
      rfl

/-- **C85** without failures of the stream: whoever uses the connections of a pool, in any order, whatever
they leave unread when they give them back, each use shows what it shows on a connection of its own that
receives only the answer to its command.
Missing: failures of the stream (`C85_late_violated`). -/
theorem C85_private_partial {R : Type} (N : Nat) (init : Nat → Conn) (hp : ∀ i, (init i).pendingResult = false)
    (hw : ∀ i, (init i).wfaults = []) (hist : List (ServiceEv R × List Bytes))
    (us : List (Nat × Step R × List Bytes)) (hu : Pool.new.uses N hist = some us)
    (ha : ∀ u ∈ us, u.2.1.Answered u.2.2)
    (hrx : ∀ i, ∃ r, (init i).rx = arriving i us ++ r) :
    ∃ s, Service.run N ⟨Pool.new, init⟩ (hist.map Prod.fst) = some (s, us.map (aloneOn init)) := by
  refine service_from N init hp hw hist Pool.new us hu ha init fun i => ?_
  obtain ⟨r, hr⟩ := hrx i
  refine ⟨(init i).tx, (init i).seqId, [], false, r, ?_, Or.inl ⟨rfl, rfl⟩⟩
  rw [← hr]
  have h := hp i
  cases hc : init i
  rw [hc] at h
  simp only at h
  subst h
  rfl

/-! ### with failures -/

/-- what the caller of a step sees if reading fails. -/
def Step.failed {R : Type} (k : IoKind) : Step R → Seen R
  | .query _ _ _ | .stmtQuery _ _ _ _ => .result (.err (.protocol (.io k))) []
  | .executeQuery _ | .stmtExecute _ _ => .done (.err (.protocol (.io k)))
  | .prepare _ => .prepared (.err (.protocol (.io k)))

theorem readPacket_fault (c : Conn) (k : IoKind) (r : List Rx) (h : c.rx = .fault k :: r) :
    readPacket c = (.err (.protocol (.io k)), { c with rx := r }) := by
  have h1 : readExact 4 c = (.err (.protocol (.io k)), { c with rx := r }) := by
    have : takeRx 4 c.rx = (.err k, r) := by rw [h]; rfl
    unfold readExact
    dsimp only
    rw [this]
    rfl
  have h2 : readChunk [] c = (.err (.protocol (.io k)), { c with rx := r }) := by
    unfold readChunk
    rw [SM.bind_of_err h1]
  unfold readPacket
  rw [readPacketLoop, SM.bind_of_err h2]

/-- a step whose answer does not arrive in time: the caller is told, and the answer is still to come. -/
theorem failed_left {R : Type} (c : Conn) (hw : c.wfaults = []) (x : Step R) (q : Bytes) (hq : x.request = some q)
    (k : IoKind) (tx : Bytes) (s : UInt8) (left : List Bytes) (pend : Bool) (r : List Rx) (hl : Left left pend) :
    ∃ tx' s', x.run (c.spot tx s left pend (.fault k :: r)) = (x.failed k, c.spot tx' s' [] false r) := by
  have hrd : ∀ tx' s', readPacket (c.spot tx' s' [] false (.fault k :: r)) =
      (.err (.protocol (.io k)), c.spot tx' s' [] false r) := by
    intro tx' s'
    rw [readPacket_fault _ k r (by simp [Spec.framesAll, rxOf])]
    simp [Conn.spot, Spec.framesAll, rxOf]
  cases x with
  | query sql rd ts =>
    obtain ⟨tx', h2⟩ := executeCommand_left c hw .query (utf8 sql) tx s left pend [] (.fault k :: r) hl
    rw [show Spec.framesAll (UInt8.ofNat (Spec.frameCount (Command.query.toByte :: utf8 sql))) [] = [] from rfl,
      show rxOf [] = [] from rfl, List.nil_append] at h2
    generalize UInt8.ofNat _ = n at h2
    refine ⟨tx', n, ?_⟩
    unfold Step.run useResult
    dsimp only
    have : Verif.query sql (c.spot tx s left pend (.fault k :: r)) = (.err (.protocol (.io k)), c.spot tx' n [] false r) := by
      unfold Verif.query
      rw [SM.bind_of_ok h2]
      unfold RSet.read
      rw [SM.bind_of_err (hrd _ _)]
    rw [this]
    rfl
  | executeQuery sql =>
    obtain ⟨tx', h2⟩ := executeCommand_left c hw .query (utf8 sql) tx s left pend [] (.fault k :: r) hl
    rw [show Spec.framesAll (UInt8.ofNat (Spec.frameCount (Command.query.toByte :: utf8 sql))) [] = [] from rfl,
      show rxOf [] = [] from rfl, List.nil_append] at h2
    generalize UInt8.ofNat _ = n at h2
    refine ⟨tx', n, ?_⟩
    unfold Step.run
    dsimp only
    have : Verif.executeQuery sql (c.spot tx s left pend (.fault k :: r)) =
        (.err (.protocol (.io k)), c.spot tx' n [] false r) := by
      unfold Verif.executeQuery
      rw [SM.bind_of_ok h2]
      unfold readResponse
      rw [SM.bind_assoc, SM.bind_of_err (hrd _ _)]
    rw [this]
    rfl
  | prepare sql =>
    obtain ⟨tx', h2⟩ := executeCommand_left c hw .stmtPrepare (utf8 sql) tx s left pend [] (.fault k :: r) hl
    rw [show Spec.framesAll (UInt8.ofNat (Spec.frameCount (Command.stmtPrepare.toByte :: utf8 sql))) [] = [] from rfl,
      show rxOf [] = [] from rfl, List.nil_append] at h2
    generalize UInt8.ofNat _ = n at h2
    refine ⟨tx', n, ?_⟩
    unfold Step.run
    dsimp only
    have : prepareStatement sql (c.spot tx s left pend (.fault k :: r)) =
        (.err (.protocol (.io k)), c.spot tx' n [] false r) := by
      unfold prepareStatement
      rw [SM.bind_of_ok h2, SM.bind_of_err (hrd _ _)]
    rw [this]
    rfl
  | stmtQuery p values rd ts =>
    have hn : ¬ values.length ≠ p.params := by
      intro hn
      unfold Step.request at hq
      dsimp only at hq
      rw [if_pos hn] at hq
      cases hq
    obtain ⟨req, hreq⟩ : ∃ req, ExecRequest.new (ε := Error) p.id values = .ok req :=
      let ⟨_, hreq, _⟩ := ExecRequest.new_spec (ε := Error) p.id values
      ⟨_, hreq⟩
    obtain ⟨tx', h2⟩ := sendExecute_left c hw p.id values req hreq tx s left pend [] (.fault k :: r) hl
    rw [show Spec.framesAll (UInt8.ofNat (Spec.frameCount req.serialize)) [] = [] from rfl,
      show rxOf [] = [] from rfl, List.nil_append] at h2
    generalize UInt8.ofNat _ = n at h2
    refine ⟨tx', n, ?_⟩
    unfold Step.run useResult
    dsimp only
    have : p.query values (c.spot tx s left pend (.fault k :: r)) =
        (.err (.protocol (.io k)), c.spot tx' n [] false r) := by
      unfold Prepared.query
      rw [if_neg hn, SM.bind_of_ok h2]
      unfold RSet.read
      rw [SM.bind_of_err (hrd _ _)]
    rw [this]
    rfl
  | stmtExecute p values =>
    have hn : ¬ values.length ≠ p.params := by
      intro hn
      unfold Step.request at hq
      dsimp only at hq
      rw [if_pos hn] at hq
      cases hq
    obtain ⟨req, hreq⟩ : ∃ req, ExecRequest.new (ε := Error) p.id values = .ok req :=
      let ⟨_, hreq, _⟩ := ExecRequest.new_spec (ε := Error) p.id values
      ⟨_, hreq⟩
    obtain ⟨tx', h2⟩ := sendExecute_left c hw p.id values req hreq tx s left pend [] (.fault k :: r) hl
    rw [show Spec.framesAll (UInt8.ofNat (Spec.frameCount req.serialize)) [] = [] from rfl,
      show rxOf [] = [] from rfl, List.nil_append] at h2
    generalize UInt8.ofNat _ = n at h2
    refine ⟨tx', n, ?_⟩
    unfold Step.run
    dsimp only
    have : p.execute values (c.spot tx s left pend (.fault k :: r)) =
        (.err (.protocol (.io k)), c.spot tx' n [] false r) := by
      unfold Prepared.execute
      rw [if_neg hn, SM.bind_of_ok h2]
      unfold readResponse
      rw [SM.bind_assoc, SM.bind_of_err (hrd _ _)]
    rw [this]
    rfl

/-- a command of one packet. -/
def Step.Small {R : Type} (x : Step R) : Prop := ∃ q, x.request = some q ∧ q.length < Spec.maxFrame

theorem wire_small {R : Type} {x y : Step R} (hx : x.Small) (hy : y.Small) (ps : List Bytes) : x.wire ps = y.wire ps := by
  obtain ⟨p, h1, h2⟩ := hx
  obtain ⟨q, h3, h4⟩ := hy
  unfold Step.wire
  rw [h1, h3]
  dsimp only
  rw [show Spec.frameCount p = 1 by unfold Spec.frameCount; rw [Nat.div_eq_of_lt h2],
    show Spec.frameCount q = 1 by unfold Spec.frameCount; rw [Nat.div_eq_of_lt h4]]

/-- After a failure to read the answer in time every command on the connection is taken to be answered by
the answer to the command before it, and no error shows it: for all commands of less than 16 MB and for as
long as the answers are of the kind expected.  (The server answers each of them: `xs`.) -/
theorem C85_late_violated {R : Type} (c : Conn) (hp : c.pendingResult = false) (hw : c.wfaults = []) (k : IoKind)
    (x : Step R) (ps : List Bytes) (xs : List (Step R × List Bytes)) (hs : ∀ y ∈ (x, ps) :: xs, y.1.Small)
    (r : List Rx) (hrx : c.rx = .fault k :: (((x, ps) :: xs).map fun y => y.1.wire y.2).flatten ++ r) :
    let shifted := (xs.map Prod.fst).zip (ps :: xs.map Prod.snd)
    (∀ y ∈ shifted, y.1.Answered y.2) →
    (runSteps (x :: xs.map Prod.fst) c).1 =
      x.failed k :: shifted.map fun y => (y.1.run { c with rx := y.1.wire y.2 }).1 := by
  intro shifted ha
  obtain ⟨q, hq, -⟩ := hs (x, ps) (List.mem_cons_self ..)
  have e : c = c.spot c.tx c.seqId [] false (.fault k :: ((((x, ps) :: xs).map fun y => y.1.wire y.2).flatten ++ r)) := by
    rw [← List.cons_append, ← hrx]
    cases c
    simp only at hp
    subst hp
    rfl
  obtain ⟨tx', s', h1⟩ := failed_left c hw x q hq k c.tx c.seqId [] false
    ((((x, ps) :: xs).map fun y => y.1.wire y.2).flatten ++ r) (Or.inl ⟨rfl, rfl⟩)
  rw [← e] at h1
  rw [runSteps]
  dsimp only
  rw [h1]
  dsimp only
  -- the stream, seen as answers to the next commands
  have key : ∀ (x : Step R) (ps : List Bytes) (xs : List (Step R × List Bytes)), (∀ y ∈ (x, ps) :: xs, y.1.Small) →
      ∃ last, (((x, ps) :: xs).map fun y => y.1.wire y.2).flatten =
        (((xs.map Prod.fst).zip (ps :: xs.map Prod.snd)).map fun y => y.1.wire y.2).flatten ++ last := by
    intro x ps xs
    induction xs generalizing x ps with
    | nil => exact fun _ => ⟨_, rfl⟩
    | cons y xs ih =>
      intro h
      obtain ⟨y, qs⟩ := y
      obtain ⟨last, hl⟩ := ih y qs fun z hz => h z (List.mem_cons_of_mem _ hz)
      refine ⟨last, ?_⟩
      rw [List.map_cons, List.flatten_cons, hl, List.map_cons, List.map_cons, List.zip_cons_cons, List.map_cons,
        List.flatten_cons, List.append_assoc]
      dsimp only
      rw [wire_small (h _ (List.mem_cons_self ..)) (h (y, qs) (List.mem_cons_of_mem _ (List.mem_cons_self ..)))]
  obtain ⟨last, hl⟩ := key x ps xs hs
  have h2 := answers_left c hp hw shifted ha (last ++ r) tx' s' [] false (Or.inl ⟨rfl, rfl⟩)
  have hf : shifted.map Prod.fst = xs.map Prod.fst := by
    show ((xs.map Prod.fst).zip (ps :: xs.map Prod.snd)).map Prod.fst = _
    rw [List.map_fst_zip (by simp)]
  rw [hf] at h2
  rw [hl, List.append_assoc, h2]

/-- In a pool, the next holder of the connection gets them: one asks, is told that the time is up and gives the
connection back; another one takes it, asks something else, and is shown the answer to the first. -/
theorem C85_pool_violated {R : Type} (N : Nat) (hN : 0 < N) (init : Nat → Conn)
    (hp : (init 0).pendingResult = false) (hw : (init 0).wfaults = []) (k : IoKind)
    (x y : Step R) (ps : List Bytes) (hx : x.Small) (hy : y.Small) (ha : y.Answered ps) (r : List Rx)
    (hrx : (init 0).rx = .fault k :: x.wire ps ++ r) :
    ∃ s, Service.run N ⟨Pool.new, init⟩
      [.pool .request, .pool (.pop 0), .pool (.load 0 0), .pool (.cas 0), .pool (.created 0), .use 0 x, .pool (.put 0),
       .pool .request, .pool (.pop 1), .use 1 y] =
      some (s, [x.failed k, (y.run { init 0 with rx := y.wire ps }).1]) := by
  obtain ⟨q, hq, hlen⟩ := hx
  have e : init 0 = (init 0).spot (init 0).tx (init 0).seqId [] false (.fault k :: (x.wire ps ++ r)) := by
    rw [← List.cons_append, ← hrx]
    cases hc : init 0
    rw [hc] at hp
    simp only at hp
    subst hp
    rfl
  obtain ⟨tx1, s1, h1⟩ := failed_left (init 0) hw x q hq k (init 0).tx (init 0).seqId [] false (x.wire ps ++ r)
    (Or.inl ⟨rfl, rfl⟩)
  rw [← e] at h1
  obtain ⟨seen, h2⟩ := step_left (init 0) hw y ps ha
  obtain ⟨tx2, s2, left, pend, h3, -⟩ := h2 tx1 s1 [] false r (Or.inl ⟨rfl, rfl⟩)
  have hal : (y.run { init 0 with rx := y.wire ps }).1 = seen := by
    obtain ⟨_, _, _, _, h7, -⟩ := h2 (init 0).tx (init 0).seqId [] false [] (Or.inl ⟨rfl, rfl⟩)
    have e : (init 0).spot (init 0).tx (init 0).seqId [] false (y.wire ps ++ []) = { init 0 with rx := y.wire ps } := by
      simp [Conn.spot, Spec.framesAll, rxOf, hp]
    rw [e] at h7
    rw [h7]
  rw [← wire_small ⟨q, hq, hlen⟩ hy] at h3
  simp only [Service.run, Service.step, Pool.step, Pool.stepReq, Pool.held, PoolEv.req, Pool.setReq, Pool.new, hN,
    Option.map_some, Option.bind_some]
  simp only [hN, if_pos, List.nil_append, List.length_nil, List.getElem?_cons_zero, List.set_cons_zero,
    Nat.le_refl, Option.map_some, Option.bind_some, List.cons_append, List.getElem?_cons_succ, List.set_cons_succ]
  rw [hal, h1]
  dsimp only
  rw [h3]
  exact ⟨_, rfl⟩

/-! ### cases -/

namespace C85ex

open C56 (okRows numbers noFloats)

def rd : RowReader (List Value) := textReader noFloats mkPlain
def ask (t : List Take) : Step (List Value) := .query "select n from t".toList rd t

/-- somebody takes the oldest idle connection, or creates the next. -/
def take (r : Nat) : List (ServiceEv (List Value) × List Bytes) := [(.pool .request, []), (.pool (.pop r), [])]
def create (r k : Nat) : List (ServiceEv (List Value) × List Bytes) :=
  [(.pool (.load r k), []), (.pool (.cas r), []), (.pool (.created r), [])]

/-- two users with a connection each; the first gives it back with rows unread; a third takes it. -/
def hist : List (ServiceEv (List Value) × List Bytes) :=
  take 0 ++ create 0 0 ++ take 1 ++ create 1 1 ++
  [(.use 0 (ask [.next]), numbers), (.use 1 (.executeQuery "b".toList), [okRows 5]), (.pool (.put 0), [])] ++
  take 2 ++ [(.use 2 (.executeQuery "c".toList), [okRows 7]), (.use 1 (ask [.collect]), numbers)]

def us : List (Nat × Step (List Value) × List Bytes) := ((Pool.new.uses 2 hist).getD [])
def init (i : Nat) : Conn := { exConn [] with rx := arriving i us }

/-- what a user learns, in short. -/
def shown : Seen (List Value) → List (List Value)
  | .result _ gots => (gots.map fun g => match g with
    | .ok (.row (some r)) => [r]
    | .ok (.rows rs) => rs
    | _ => []).flatten
  | .done (.ok ok) => [[.ulong ok.affectedRows]]
  | _ => []

/-- one user's numbers arrive late; another asks for something else. -/
def late : Conn := { exConn [] with
  rx := .fault .timedOut :: (ask [.collect]).wire numbers }

def lateHist : List (ServiceEv (List Value) × List Bytes) :=
  take 0 ++ create 0 0 ++ [(.use 0 (ask [.collect]), []), (.pool (.put 0), [])] ++ take 1 ++
  [(.use 1 (.query "select mine".toList rd [.collect]), [])]

end C85ex

open C85ex in
/-- Three users of two connections: each is shown their own; and what the second user of a connection is
shown after the first was told that the time is up. -/
theorem C85_example :
    us.map (fun u => u.1) = [0, 1, 0, 1] ∧ (us.map fun u => u.2.2.length) = [5, 1, 1, 5] ∧
    ((Service.run 2 ⟨Pool.new, init⟩ (hist.map Prod.fst)).map fun x => x.2.map shown) =
      some [[[.int 7]], [[.ulong 5]], [[.ulong 7]], [[.int 7], [.int 8]]] ∧
    ((Service.run 1 ⟨Pool.new, fun _ => late⟩ (lateHist.map Prod.fst)).map fun x => x.2.map shown) =
      some [[], [[.int 7], [.int 8]]] := by
  refine ⟨?_, ?_, ?_, ?_⟩ <;> decide +kernel

end Verif

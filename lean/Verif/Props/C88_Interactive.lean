import Verif.Props.C86_Torn
import Verif.Proofs.Causal
import Verif.Proofs.Whole

/-!
# C88 — a client and a server never wait for each other

Bytes that arrive later change nothing of what was done before; so what a program does does not depend on when the
answers arrive, and it is as in the model, where everything is there from the start.  Before a call waits, its command
is out.  Behind a stream that buffers what is written it is not: nothing in the library asks such a stream to pass on
what it holds.
-/

namespace Verif

open Spec (frames Client Server Delivered Library Steady answering)

/-! ### what arrives later -/

/-- **C88** for a call. -/
theorem C88_call {α : Type} {m : M α} (h : Library m) : Causal m := Causal.library h

/-- **C88** for a program of any calls. -/
theorem C88_program {α : Type} (p : Client α) (h : p.Uses) : Causal p.run := by
  induction p with
  | done a => exact Causal.pure a
  | call m k ih =>
    obtain ⟨h1, h2⟩ := h
    have hm := Causal.library h1
    intro c
    obtain ⟨m1, m2⟩ := hm c
    have grow : ∀ c', (m c').2.tx <+: ((Client.call m k).run c').2.tx := by
      intro c'
      unfold Client.run
      match m c' with
      | (.ok b, s) => exact (ih _ (h2 _) s).1
      | (.err e, s) =>
        dsimp only
        split
        · exact List.prefix_rfl
        · exact (ih _ (h2 _) s).1
      | (.panic, s) => exact List.prefix_rfl
    refine ⟨m1.trans (grow c), fun zs => ?_⟩
    have wait : Dry (m c) → (m c).2.tx <+: (m (c.more zs)).2.tx →
        Dry ((Client.call m k).run c) ∧ ((Client.call m k).run c).2.tx <+: ((Client.call m k).run (c.more zs)).2.tx := by
      intro hd hx
      have e : (Client.call m k).run c = (.err eof, (m c).2) := by
        unfold Client.run
        obtain ⟨d1, d2⟩ := hd
        match e : m c with
        | (.ok b, s) => rw [e] at d1; cases d1
        | (.panic, s) => rw [e] at d1; cases d1
        | (.err x, s) =>
          rw [e] at d1 d2
          cases d1
          exact if_pos ⟨rfl, d2⟩
      rw [e]
      exact ⟨⟨rfl, hd.2⟩, hx.trans (grow _)⟩
    rcases m2 zs with h3 | ⟨h3, h4⟩
    · by_cases hd : Dry (m c)
      · exact Or.inr (wait hd (by rw [h3]; exact List.prefix_rfl))
      · have e1 : (Client.call m k).run (c.more zs) = match (m c).1 with
            | .ok b => (k (.ok b)).run ((m c).2.more zs)
            | .err e => if e = eof ∧ ((m c).2.more zs).rx = [] then (.err eof, (m c).2.more zs)
              else (k (.error e)).run ((m c).2.more zs)
            | .panic => (.panic, (m c).2.more zs) := by
          rw [Client.run, h3]
          cases (m c).1 <;> rfl
        have e2 : (Client.call m k).run c = match (m c).1 with
            | .ok b => (k (.ok b)).run (m c).2
            | .err e => (k (.error e)).run (m c).2
            | .panic => (.panic, (m c).2) := by
          rw [Client.run]
          match e : m c with
          | (.ok b, s) => rfl
          | (.panic, s) => rfl
          | (.err x, s) =>
            exact if_neg fun h => hd ⟨by rw [e]; exact congrArg _ h.1, by rw [e]; exact h.2⟩
        rw [e1, e2]
        match e : (m c).1 with
        | .ok b => exact (ih _ (h2 _) _).2 zs
        | .panic => exact Or.inl rfl
        | .err x =>
          dsimp only
          rw [if_neg]
          · exact (ih _ (h2 _) _).2 zs
          · rintro ⟨rfl, h⟩
            exact hd ⟨e, (List.append_eq_nil_iff.1 h).1⟩
    · exact Or.inr (wait h3 h4)

/-! ### any delivery -/

section
variable {α : Type} {srv : Server} {m : M α} {c : Conn}

theorem Causal.tx_mono (hm : Causal m) (c : Conn) {zs ws : List Rx} (h : zs <+: ws) :
    (m (c.more zs)).2.tx <+: (m (c.more ws)).2.tx := by
  obtain ⟨ys, rfl⟩ := h
  have e : c.more (zs ++ ys) = (c.more zs).more ys := by unfold Conn.more; simp only [List.append_assoc]
  rw [e]
  rcases (hm (c.more zs)).2 ys with h | h
  · rw [h]; exact List.prefix_rfl
  · exact h.2

theorem delivered_sent (hs : Steady srv) (hm : Causal m) {zs : List Rx} (h : Delivered srv m c zs) :
    zs <+: srv (m (c.more zs)).2.tx := by
  cases h with
  | nothing => exact List.nil_prefix
  | more h1 h2 h3 => exact h3.trans (hs _ _ (hm.tx_mono c h2))

theorem delivered_join (hs : Steady srv) (hm : Causal m) {zs ws : List Rx} (h : Delivered srv m c zs)
    (hw : Delivered srv m c ws) : ∃ vs, Delivered srv m c vs ∧ zs <+: vs ∧ ws <+: vs := by
  induction h with
  | nothing => exact ⟨ws, hw, List.nil_prefix, List.prefix_rfl⟩
  | more h1 h2 h3 ih =>
    obtain ⟨vs, hv, a1, a2⟩ := ih
    have hv' := delivered_sent hs hm hv
    exact ⟨_, .more hv hv' List.prefix_rfl, h3.trans (hs _ _ (hm.tx_mono c a1)), a2.trans hv'⟩

theorem causal_done (hm : Causal m) {zs vs : List Rx} (hd : ¬Dry (m (c.more zs))) (h : zs <+: vs) :
    (m (c.more vs)).1 = (m (c.more zs)).1 ∧ (m (c.more vs)).2.tx = (m (c.more zs)).2.tx ∧ ¬Dry (m (c.more vs)) := by
  obtain ⟨ys, rfl⟩ := h
  have e : c.more (zs ++ ys) = (c.more zs).more ys := by unfold Conn.more; simp only [List.append_assoc]
  rcases (hm (c.more zs)).2 ys with h | h
  · rw [e, h]
    exact ⟨rfl, rfl, fun h => hd ⟨h.1, (List.append_eq_nil_iff.1 h.2).1⟩⟩
  · exact absurd h.1 hd

end

/-- **C88**: in whatever portions the answers of a server arrive, a program ends in one way only, having written the
same; and once it can end, it ends whatever has been delivered so far and however the delivery goes on. -/
theorem C88_delivery {α : Type} (p : Client α) (hp : p.Uses) (srv : Server) (hs : Steady srv) (c : Conn) (zs ws : List Rx)
    (hz : Delivered srv p.run c zs) (hd : ¬Dry (p.run (c.more zs))) (hw : Delivered srv p.run c ws) :
    (¬Dry (p.run (c.more ws)) → (p.run (c.more ws)).1 = (p.run (c.more zs)).1 ∧
      (p.run (c.more ws)).2.tx = (p.run (c.more zs)).2.tx) ∧
    ∃ vs, Delivered srv p.run c vs ∧ ws <+: vs ∧ ¬Dry (p.run (c.more vs)) := by
  have hm := C88_program p hp
  obtain ⟨vs, h1, h2, h3⟩ := delivered_join hs hm hz hw
  obtain ⟨a1, a2, a3⟩ := causal_done hm hd h2
  refine ⟨fun hd' => ?_, vs, h1, h3, a3⟩
  obtain ⟨b1, b2, -⟩ := causal_done hm hd' h3
  exact ⟨b1.symm.trans a1, b2.symm.trans a2⟩

/-! ### before it waits -/

/-- **C88**: if no write fails, what a program has written is whole packets whenever it waits or ends. -/
theorem C88_whole {α : Type} (p : Client α) (hp : p.Uses) (c : Conn) (hw : c.wfaults = []) :
    ∃ ps, (p.run c).2.tx = c.tx ++ Spec.wire ps := by
  suffices Whole p.run from (this c hw).2
  clear hw c
  induction p with
  | done a => exact Whole.pure a
  | call m k ih =>
    intro c hc
    obtain ⟨h1, ps, h2⟩ := Whole.library hp.1 c hc
    have go : ∀ x, (m c).2.wfaults = [] → ((k x).run (m c).2).2.wfaults = [] ∧
        ∃ qs, ((k x).run (m c).2).2.tx = c.tx ++ Spec.wire qs := by
      intro x hx
      obtain ⟨h3, qs, h4⟩ := ih x (hp.2 x) (m c).2 hx
      exact ⟨h3, ps ++ qs, by rw [h4, h2, List.append_assoc]; unfold Spec.wire; rw [List.flatMap_append]⟩
    unfold Client.run
    match e : m c with
    | (.ok b, s) =>
      have := go (.ok b) h1
      rw [e] at this
      exact this
    | (.err x, s) =>
      have := go (.error x) h1
      rw [e] at this h1 h2
      dsimp only
      split
      · exact ⟨h1, ps, h2⟩
      · exact this
    | (.panic, s) =>
      rw [e] at h1 h2
      exact ⟨h1, ps, h2⟩

theorem readPacket_nothing (c : Conn) (h : c.rx = []) : readPacket c = (.err eof, c) := by
  unfold readPacket readPacketLoop
  have : readChunk [] c = (.err eof, c) := by
    unfold readChunk
    have : readExact 4 c = (.err eof, c) := by
      unfold readExact
      rw [h]
      simp only [takeRx, ← h]
      rfl
    rw [SM.bind_of_err this]
  rw [SM.bind_of_err this]

/-- **C88**: a call writes its whole command before it waits for the answer, and does not wait before that. -/
theorem C88_asks (c : Conn) (hr : c.rx = []) (hp : c.pendingResult = false) (hw : c.wfaults = []) :
    (∀ sql, Dry (query sql c) ∧ (query sql c).2.tx = c.tx ++ frames 0 (0x03 :: utf8 sql)) ∧
    (∀ sql, Dry (executeQuery sql c) ∧ (executeQuery sql c).2.tx = c.tx ++ frames 0 (0x03 :: utf8 sql)) ∧
    (∀ sql, Dry (prepareStatement sql c) ∧ (prepareStatement sql c).2.tx = c.tx ++ frames 0 (0x16 :: utf8 sql)) ∧
    (∀ (p : Prepared) vs, vs.length = p.params → ∃ r pre, ExecRequest.new (ε := Error) p.id vs = .ok r ∧
      Dry (p.query vs c) ∧ Dry (p.execute vs c) ∧
      (p.query vs c).2.tx = c.tx ++ Spec.commands (pre ++ [r.serialize]) ∧
      (p.execute vs c).2.tx = c.tx ++ Spec.commands (pre ++ [r.serialize])) ∧
    (∀ cr alnum fp, Dry (connect cr alnum fp c) ∧ (connect cr alnum fp c).2.tx = c.tx) := by
  have hresp : ∀ c' : Conn, c'.rx = [] → (readResponse >>= okOrServerError) c' = (.err eof, c') := by
    intro c' h
    have : readResponse c' = (.err eof, c') := by
      unfold readResponse
      rw [SM.bind_of_err (readPacket_nothing c' h)]
    rw [SM.bind_of_err this]
  have hread : ∀ c' : Conn, c'.rx = [] → RSet.read c' = (.err eof, c') := by
    intro c' h
    unfold RSet.read
    rw [SM.bind_of_err (readPacket_nothing c' h)]
  refine ⟨fun sql => ?_, fun sql => ?_, fun sql => ?_, fun p vs hl => ?_, fun cr alnum fp => ?_⟩
  · have h : query sql c = (.err eof, { c with
        tx := c.tx ++ frames 0 (0x03 :: utf8 sql), seqId := UInt8.ofNat (Spec.frameCount (0x03 :: utf8 sql)) }) :=
      (SM.bind_of_ok (executeCommand_clean .query (utf8 sql) c hp hw)).trans (hread _ (by exact hr))
    rw [h]
    exact ⟨⟨rfl, hr⟩, rfl⟩
  · have h : executeQuery sql c = (.err eof, { c with
        tx := c.tx ++ frames 0 (0x03 :: utf8 sql), seqId := UInt8.ofNat (Spec.frameCount (0x03 :: utf8 sql)) }) :=
      (SM.bind_of_ok (executeCommand_clean .query (utf8 sql) c hp hw)).trans (hresp _ (by exact hr))
    rw [h]
    exact ⟨⟨rfl, hr⟩, rfl⟩
  · have h : prepareStatement sql c = (.err eof, { c with
        tx := c.tx ++ frames 0 (0x16 :: utf8 sql), seqId := UInt8.ofNat (Spec.frameCount (0x16 :: utf8 sql)) }) :=
      (SM.bind_of_ok (executeCommand_clean .stmtPrepare (utf8 sql) c hp hw)).trans
        (SM.bind_of_err (readPacket_nothing _ (by exact hr)))
    rw [h]
    exact ⟨⟨rfl, hr⟩, rfl⟩
  · obtain ⟨r, h1, h2⟩ := sendExecute_clean p.id vs c hp hw
    have hq : p.query vs c = (.err eof, { c with
        tx := c.tx ++ Spec.commands (execCmds p.id vs r), seqId := UInt8.ofNat (Spec.frameCount r.serialize) }) := by
      unfold Prepared.query
      rw [if_neg (fun h => h hl)]
      exact (SM.bind_of_ok h2).trans (hread _ (by exact hr))
    have he : p.execute vs c = (.err eof, { c with
        tx := c.tx ++ Spec.commands (execCmds p.id vs r), seqId := UInt8.ofNat (Spec.frameCount r.serialize) }) := by
      unfold Prepared.execute
      rw [if_neg (fun h => h hl)]
      exact (SM.bind_of_ok h2).trans (hresp _ (by exact hr))
    obtain ⟨pre, hpre⟩ : ∃ pre, execCmds p.id vs r = pre ++ [r.serialize] := by
      exact ⟨_, rfl⟩
    rw [hpre] at hq he
    refine ⟨r, pre, h1, ?_, ?_, ?_, ?_⟩
    · rw [hq]; exact ⟨rfl, hr⟩
    · rw [he]; exact ⟨rfl, hr⟩
    · rw [hq]
    · rw [he]
  · have : connect cr alnum fp c = (.err eof, c) := by
      unfold connect login
      have h : handleHandshake alnum c = (.err eof, c) := by
        unfold handleHandshake
        rw [SM.bind_of_err (readPacket_nothing c hr)]
      rw [SM.bind_of_err (SM.bind_of_err h)]
    rw [this]
    exact ⟨⟨rfl, hr⟩, rfl⟩

/-! ### a dialog -/

theorem readCommandsN_more (n m : Nat) (s u : Bytes) (hn : s.length ≤ n) (hm : (s ++ u).length ≤ m) :
    Spec.readCommandsN n s <+: Spec.readCommandsN m (s ++ u) := by
  induction n generalizing m s with
  | zero => exact List.nil_prefix
  | succ n ih =>
    unfold Spec.readCommandsN
    match h : Spec.receive s.length 0 s with
    | none => exact List.nil_prefix
    | some (p, q, r) =>
      have hr := receive_shrinks h
      have hl : (s ++ u).length = s.length + u.length := List.length_append
      have h' := receive_more h u.length u
      rw [← hl] at h'
      cases m with
      | zero => omega
      | succ m =>
        dsimp only
        rw [h']
        dsimp only
        refine (List.prefix_cons_inj p).2 (ih m r (by omega) ?_)
        rw [List.length_append] at *
        omega

/-- what a server has read stays read. -/
theorem readCommands_mono (s t : Bytes) (h : s <+: t) : Spec.readCommands s <+: Spec.readCommands t := by
  obtain ⟨u, rfl⟩ := h
  exact readCommandsN_more _ _ s u (Nat.le_refl _) (Nat.le_refl _)

/-- such servers exist. -/
theorem answering_steady (answer : Bytes → Bytes) : Steady (answering answer) := by
  intro a b h
  obtain ⟨ys, h⟩ := readCommands_mono a b h
  unfold answering
  rw [← h, List.flatMap_append]
  exact List.prefix_append _ _

/-- execute statements one after the other, also after errors. -/
def eachOf : List (Except Error OkPacket) → List Str → Client (List (Except Error OkPacket))
  | got, [] => .done got
  | got, sql :: sqls => .call (executeQuery sql) fun r => eachOf (got ++ [r]) sqls

theorem eachOf_uses (got : List (Except Error OkPacket)) (sqls : List Str) : (eachOf got sqls).Uses := by
  induction sqls generalizing got with
  | nil => exact trivial
  | cons s sqls ih => exact ⟨.executeQuery s, fun x => ih _⟩

/-- the answer to a statement, on its own. -/
def onItsOwn (c : Conn) (answer : Bytes → Bytes) (sql : Str) : Out Error OkPacket :=
  (executeQuery sql { c with rx := (frames (UInt8.ofNat (Spec.frameCount (0x03 :: utf8 sql))) (answer (0x03 :: utf8 sql))).map .byte }).1

theorem decode_same (p : Bytes) (c c' : Conn) (h : c.data.capabilities = c'.data.capabilities) :
    (decodeResponse p >>= okOrServerError) c' = (((decodeResponse p >>= okOrServerError) c).1, c') := by
  have h1 : decodeResponse p c' = ((decodeResponse p c).1, c') ∧ (decodeResponse p c).2 = c := by
    unfold decodeResponse
    rw [SM.get_bind_apply, SM.get_bind_apply, ← h]
    split
    · exact ⟨rfl, rfl⟩
    · split
      · unfold liftP
        cases (runP (OkPacket.readOk c.data.capabilities) _) <;> exact ⟨rfl, rfl⟩
      · split
        · unfold liftP
          cases (runP (ErrPacket.deserialize c.data.capabilities) _) <;> exact ⟨rfl, rfl⟩
        · exact ⟨rfl, rfl⟩
  rw [SM.bind_apply, SM.bind_apply, h1.1]
  match e : decodeResponse p c with
  | (.ok (.ok a), s) => rfl
  | (.ok (.error a), s) => rfl
  | (.err _, s) => rfl
  | (.panic, s) => rfl

theorem executeQuery_fed (sql : Str) (c : Conn) (answer : Bytes → Bytes) (r : List Rx) (hp : c.pendingResult = false)
    (hw : c.wfaults = [])
    (hr : c.rx = (frames (UInt8.ofNat (Spec.frameCount (0x03 :: utf8 sql))) (answer (0x03 :: utf8 sql))).map .byte ++ r)
    (c0 : Conn) (h0 : c0.data.capabilities = c.data.capabilities) (hp0 : c0.pendingResult = false) (hw0 : c0.wfaults = []) :
    ∃ q, executeQuery sql c = (onItsOwn c0 answer sql,
      { c with rx := r, tx := c.tx ++ frames 0 (0x03 :: utf8 sql), seqId := q }) := by
  have main : ∀ (c : Conn) (r : List Rx), c.pendingResult = false → c.wfaults = [] →
      c.rx = (frames (UInt8.ofNat (Spec.frameCount (0x03 :: utf8 sql))) (answer (0x03 :: utf8 sql))).map .byte ++ r →
      executeQuery sql c = (decodeResponse (answer (0x03 :: utf8 sql)) >>= okOrServerError)
        { c with rx := r, tx := c.tx ++ frames 0 (0x03 :: utf8 sql),
                 seqId := UInt8.ofNat (Spec.frameCount (0x03 :: utf8 sql)) + UInt8.ofNat (Spec.frameCount (answer (0x03 :: utf8 sql))) } := by
    intro c r hp hw hr
    unfold executeQuery
    rw [SM.bind_of_ok (executeCommand_clean .query (utf8 sql) c hp hw)]
    unfold readResponse
    rw [SM.bind_assoc]
    rw [SM.bind_of_ok (readPacket_frames (answer (0x03 :: utf8 sql)) r _ hr)]
    rfl
  have h1 := main c r hp hw hr
  have h2 := main { c0 with rx := (frames (UInt8.ofNat (Spec.frameCount (0x03 :: utf8 sql))) (answer (0x03 :: utf8 sql))).map .byte } []
    hp0 hw0 (List.append_nil _).symm
  refine ⟨UInt8.ofNat (Spec.frameCount (0x03 :: utf8 sql)) + UInt8.ofNat (Spec.frameCount (answer (0x03 :: utf8 sql))), ?_⟩
  rw [h1, onItsOwn, h2]
  exact decode_same _ _ _ h0

/-- the answers to statements. -/
def answers (answer : Bytes → Bytes) (sqls : List Str) : List Rx :=
  sqls.flatMap fun sql => (frames (UInt8.ofNat (Spec.frameCount (0x03 :: utf8 sql))) (answer (0x03 :: utf8 sql))).map .byte

theorem readCommands_all (ps : List Bytes) : Spec.readCommands (Spec.commands ps) = ps := by
  induction ps with
  | nil => rfl
  | cons p ps ih =>
    have : Spec.commands (p :: ps) = frames 0 p ++ Spec.commands ps := rfl
    rw [this, readCommands_frames, ih]

/-- what an answer says: the result, or an error of the server. -/
def said (o : Out Error OkPacket) : Option (Except Error OkPacket) :=
  match o with
  | .ok a => some (.ok a)
  | .err (.server e) => some (.error (.server e))
  | _ => none

theorem eachOf_run (answer : Bytes → Bytes) (c0 : Conn) (hp0 : c0.pendingResult = false) (hw0 : c0.wfaults = [])
    (sqls : List Str) (rs : List (Except Error OkPacket))
    (ha : List.Forall₂ (fun sql r => said (onItsOwn c0 answer sql) = some r) sqls rs)
    (got : List (Except Error OkPacket)) (c : Conn) (hc : c.data.capabilities = c0.data.capabilities)
    (hp : c.pendingResult = false) (hw : c.wfaults = []) (k : Nat) (hk : k ≤ sqls.length)
    (hr : c.rx = answers answer (sqls.take k)) :
    (k < sqls.length → Dry ((eachOf got sqls).run c) ∧ ((eachOf got sqls).run c).2.tx =
      c.tx ++ Spec.commands ((sqls.take (k + 1)).map fun s => 0x03 :: utf8 s)) ∧
    (k = sqls.length → ((eachOf got sqls).run c).1 = .ok (got ++ rs) ∧ ((eachOf got sqls).run c).2.tx =
      c.tx ++ Spec.commands (sqls.map fun s => 0x03 :: utf8 s)) := by
  induction ha generalizing got c k with
  | nil =>
    refine ⟨fun h => absurd h (Nat.not_lt_zero _), fun _ => ⟨?_, ?_⟩⟩
    · rw [List.append_nil]; rfl
    · exact (List.append_nil _).symm
  | @cons sql r sqls rs h1 _ ih =>
    cases k with
    | zero =>
      refine ⟨fun _ => ?_, fun h => by cases h⟩
      have hr' : c.rx = [] := hr
      obtain ⟨⟨d1, d2⟩, h3⟩ := (C88_asks c hr' hp hw).2.1 sql
      have e : (eachOf got (sql :: sqls)).run c = (.err eof, (executeQuery sql c).2) := by
        unfold eachOf Client.run
        match e : executeQuery sql c with
        | (.ok b, s) => rw [e] at d1; cases d1
        | (.panic, s) => rw [e] at d1; cases d1
        | (.err x, s) =>
          rw [e] at d1 d2
          cases d1
          exact if_pos ⟨rfl, d2⟩
      rw [e]
      refine ⟨⟨rfl, d2⟩, ?_⟩
      rw [h3]
      simp only [Spec.commands, List.take_succ_cons, List.take_zero, List.map_cons, List.map_nil, List.flatMap_cons,
        List.flatMap_nil, List.append_nil]
    | succ k =>
      have hr' : c.rx = (frames (UInt8.ofNat (Spec.frameCount (0x03 :: utf8 sql))) (answer (0x03 :: utf8 sql))).map .byte ++
        answers answer (sqls.take k) := hr
      obtain ⟨q, h2⟩ := executeQuery_fed sql c answer _ hp hw hr' c0 hc.symm hp0 hw0
      have e : (eachOf got (sql :: sqls)).run c = (eachOf (got ++ [r]) sqls).run
          { c with rx := answers answer (sqls.take k), tx := c.tx ++ frames 0 (0x03 :: utf8 sql), seqId := q } := by
        rw [eachOf, Client.run, h2]
        match ho : onItsOwn c0 answer sql, h1 with
        | .ok a, h1 => cases h1; rfl
        | .err (.server x), h1 =>
          cases h1
          exact if_neg fun h => by cases h.1
      obtain ⟨i1, i2⟩ := ih (got ++ [r]) { c with
        rx := answers answer (sqls.take k), tx := c.tx ++ frames 0 (0x03 :: utf8 sql), seqId := q } hc hp hw k
        (by simpa using hk) rfl
      rw [e]
      refine ⟨fun h => ?_, fun h => ?_⟩
      · obtain ⟨j1, j2⟩ := i1 (by simpa using h)
        refine ⟨j1, ?_⟩
        rw [j2, List.take_succ_cons, List.map_cons]
        simp only [Spec.commands, List.flatMap_cons, List.append_assoc]
      · obtain ⟨j1, j2⟩ := i2 (by simpa using h)
        refine ⟨by rw [j1, List.append_assoc]; rfl, ?_⟩
        rw [j2, List.map_cons]
        simp only [Spec.commands, List.flatMap_cons, List.append_assoc]

/-- **C88**: against a server that answers each command as soon as it has read it — with anything that the call, on its
own, takes for a result or a server error — a client that executes statements one after the other gets to the end,
whatever has been delivered so far and in whatever portions; it gets to each statement the answer to that statement, and
the server has read exactly the statements.
Missing: a stream that keeps what is written (`C88_buffered_violated`). -/
theorem C88_dialog_partial (answer : Bytes → Bytes) (c : Conn) (hr : c.rx = []) (ht : c.tx = []) (hp : c.pendingResult = false)
    (hw : c.wfaults = []) (sqls : List Str) (rs : List (Except Error OkPacket))
    (ha : List.Forall₂ (fun sql r => said (onItsOwn c answer sql) = some r) sqls rs) (ws : List Rx)
    (hd : Delivered (answering answer) (eachOf [] sqls).run c ws) :
    ∃ vs, Delivered (answering answer) (eachOf [] sqls).run c vs ∧ ws <+: vs ∧
      ((eachOf [] sqls).run (c.more vs)).1 = .ok rs ∧
      Spec.readCommands ((eachOf [] sqls).run (c.more vs)).2.tx = sqls.map fun s => 0x03 :: utf8 s := by
  have hrun := fun k hk => eachOf_run answer c hp hw sqls rs ha [] (c.more (answers answer (sqls.take k))) rfl hp hw k hk
    (by unfold Conn.more; rw [hr]; rfl)
  have hsent : ∀ n, answering answer (Spec.commands ((sqls.take n).map fun s => 0x03 :: utf8 s)) =
      answers answer (sqls.take n) := by
    intro n
    unfold answering answers
    rw [readCommands_all, List.flatMap_map]
  have hdel : ∀ k, k ≤ sqls.length → Delivered (answering answer) (eachOf [] sqls).run c (answers answer (sqls.take k)) := by
    intro k
    induction k with
    | zero => exact fun _ => .nothing
    | succ k ih =>
      intro hk
      refine .more (ih (by omega)) ?_ ?_
      · unfold answers
        obtain ⟨l, hl⟩ : sqls.take k <+: sqls.take (k + 1) := List.take_prefix_take_left (by omega)
        rw [← hl, List.flatMap_append]
        exact List.prefix_append _ _
      · have h1 := ((hrun k (by omega)).1 (by omega)).2
        have h2 : (c.more (answers answer (sqls.take k))).tx = [] := ht
        rw [h2, List.nil_append] at h1
        rw [h1, hsent]
  have hend := (hrun sqls.length (Nat.le_refl _)).2 rfl
  have hz := hdel sqls.length (Nat.le_refl _)
  have hnd : ¬Dry ((eachOf [] sqls).run (c.more (answers answer (sqls.take sqls.length)))) := fun h => by
    have := h.1; rw [hend.1] at this; cases this
  obtain ⟨vs, h1, h2, h3⟩ := (C88_delivery _ (eachOf_uses [] sqls) _ (answering_steady answer) c _ ws hz hnd hd).2
  obtain ⟨h4, h5⟩ := (C88_delivery _ (eachOf_uses [] sqls) _ (answering_steady answer) c _ vs hz hnd h1).1 h3
  refine ⟨vs, h1, h2, h4.trans hend.1, ?_⟩
  have h6 : (c.more (answers answer (sqls.take sqls.length))).tx = [] := ht
  rw [h5, hend.2, h6, List.nil_append, readCommands_all]

/-! ### behind a buffer -/

/-- **C88 is violated** behind a stream that keeps what is written until it is told to pass it on (`tokio`'s
`BufWriter`, say): `held` is what has left it. No call of the library tells it to. If the end of a command is kept, the
server has nothing to answer, and the call waits for ever. -/
theorem C88_buffered_violated (answer : Bytes → Bytes) (held : Bytes → Bytes) (c : Conn) (hr : c.rx = []) (ht : c.tx = [])
    (hp : c.pendingResult = false) (hw : c.wfaults = []) (sql : Str)
    (hh : ∃ u, u ≠ [] ∧ frames 0 (0x03 :: utf8 sql) = held (frames 0 (0x03 :: utf8 sql)) ++ u) (zs : List Rx)
    (hd : Delivered (fun s => answering answer (held s)) (executeQuery sql) c zs) :
    zs = [] ∧ Dry (executeQuery sql (c.more zs)) := by
  have e : c.more [] = c := by unfold Conn.more; rw [List.append_nil]
  obtain ⟨h1, h2⟩ := (C88_asks c hr hp hw).2.1 sql
  suffices zs = [] by subst this; rw [e]; exact ⟨rfl, h1⟩
  induction hd with
  | nothing => rfl
  | more _ _ h ih =>
    subst ih
    rw [e, h2, ht, List.nil_append] at h
    obtain ⟨u, hu, hh⟩ := hh
    unfold answering at h
    rw [readCommands_part _ _ u hh hu] at h
    exact List.prefix_nil.1 h

/-! ### examples -/

namespace C88ex

/-- every command is answered with an OK packet of as many rows as the command is long. -/
def answer (p : Bytes) : Bytes := [0x00, UInt8.ofNat p.length, 0, 2, 0, 0, 0]

def sqls : List Str := ["begin".toList, "delete from `t`".toList, "commit".toList]

/-- a stream that passes on blocks of 8192 bytes. -/
def block (s : Bytes) : Bytes := s.take (s.length / 8192 * 8192)

end C88ex

open C88ex in
/-- three statements, each answered by its own packet (6, 16 and 7 bytes long); while only the first answer and a half
have arrived, the second statement is out and the third is not; the command of a call stays in a buffer of 8192 bytes. -/
theorem C88_example :
    ((eachOf [] sqls).run ((exConn []).more (answers answer sqls))).1 =
      .ok (([6, 16, 7] : List UInt64).map fun n =>
        .ok { affectedRows := n, lastInsertId := 0, status := 2, warnings := 0, message := none, sessionStateInfo := none }) ∧
    ((eachOf [] sqls).run ((exConn []).more ((answers answer sqls).take 16))).1 = .err eof ∧
    Spec.readCommands ((eachOf [] sqls).run ((exConn []).more ((answers answer sqls).take 16))).2.tx =
      (sqls.take 2).map (fun s => 0x03 :: utf8 s) ∧
    block (frames 0 (0x03 :: utf8 "commit".toList)) = [] := by
  refine ⟨?_, ?_, ?_, ?_⟩ <;> decide +kernel

end Verif

import Verif.Props.C90_Polls
import Verif.Props.C86_Torn

/-!
# C91: a call whose future is dropped

A future can be dropped wherever it is suspended (by `select!`, by a limit of time for a whole task, by the end of a
request).  The property: afterwards the connection can be used, the next command gets its own answer.
-/

namespace Verif

open Spec

/-- Dropped anywhere, a call leaves the connection that it would leave if the operation it is suspended in failed, with
whatever error; what had been read of a packet is lost, what had been written has been written.  (So what is known about
calls that fail, C56, C59, C61, C85 and C86, holds for calls that are dropped.) -/
theorem C91_like_failure {α : Type} {p : Code α} {m : M α} (h : Future p m) {T : Nat} {l l' : Loc} {es : List Poll}
    {d : Did} {w : Spot} (hx : Exec T p l es d (.waiting w l')) (k : IoKind) (rx : List Rx) (tx : Bytes)
    (wf : List (Option (Nat × IoKind))) :
    m (l.conn (d.rx ++ (w.rx k ++ rx)) tx (d.wf ++ (w.wf k ++ wf))) =
      (.err (.protocol (.io k)), l'.conn rx (tx ++ d.tx) wf) :=
  (Twin.call h).drops hx k rx tx wf

/-- `one` goes on after an error; dropped, it leaves what a first `next` that fails there would leave, or what remains
when reading the rest fails there. -/
theorem C91_one {R : Type} (rd : RowReader R) (rs : RSet) {T : Nat} {l l' : Loc} {es : List Poll} {d : Did} {w : Spot}
    (hx : Exec T (Async.one rd rs) l es d (.waiting w l')) (k : IoKind) (rx : List Rx) (tx : Bytes)
    (wf : List (Option (Nat × IoKind))) :
    let c := l.conn (d.rx ++ (w.rx k ++ rx)) tx (d.wf ++ (w.wf k ++ wf))
    let c' := l'.conn rx (tx ++ d.tx) wf
    rs.next rd c = (.err (.protocol (.io k)), c') ∨
    ∃ c1 rs', ((∃ x, rs.next rd c = (.ok (rs', x), c1)) ∨ (∃ e, rs.next rd c = (.err e, c1) ∧ rs' = rs)) ∧
      rs'.drain rd c1 = (.err (.protocol (.io k)), c') := by
  intro c c'
  unfold Async.one at hx
  cases hx with
  | wait h1 =>
    cases h1 with
    | wait h1 => exact Or.inl ((Twin.next rd rs).drops h1 k rx tx wf)
  | ok h1 h2 =>
    right
    rename_i l1 es1 d d' b
    cases h1 with
    | ok h1 =>
      rename_i a
      obtain ⟨rs', r?⟩ := a
      have e1 := (Twin.next rd rs).sound h1 (d'.rx ++ (w.rx k ++ rx)) tx (d'.wf ++ (w.wf k ++ wf))
      refine ⟨l1.conn (d'.rx ++ (w.rx k ++ rx)) (tx ++ d.tx) (d'.wf ++ (w.wf k ++ wf)), rs', Or.inl ⟨r?, ?_⟩, ?_⟩
      · simpa only [c, Did.and, List.append_assoc] using e1
      · cases h2 with
        | wait h2 =>
          have := (Twin.drain rd rs').drops h2 k rx (tx ++ d.tx) wf
          simpa only [c', Did.and, List.append_assoc] using this
        | ok h2 h3 => exact absurd h3.2 (by intro h; cases h)
    | err h1 =>
      have e1 := (Twin.next rd rs).sound h1 (d'.rx ++ (w.rx k ++ rx)) tx (d'.wf ++ (w.wf k ++ wf))
      rename_i e
      refine ⟨l1.conn (d'.rx ++ (w.rx k ++ rx)) (tx ++ d.tx) (d'.wf ++ (w.wf k ++ wf)), rs, Or.inr ⟨e, ?_, rfl⟩, ?_⟩
      · simpa only [c, Did.and, List.append_assoc] using e1
      · cases h2 with
        | wait h2 =>
          have := (Twin.drain rd rs).drops h2 k rx (tx ++ d.tx) wf
          simpa only [c', Did.and, List.append_assoc] using this
        | ok h2 h3 => exact absurd h3.2 (by intro h; cases h)

/-! ### where it does no harm -/

theorem readPacket_stops (c : Conn) (k : IoKind) (r : List Rx) (h : c.rx = .fault k :: r) :
    readPacket c = (.err (.protocol (.io k)), { c with rx := r }) := by
  have e : readExact 4 c = (.err (.protocol (.io k)), { c with rx := r }) := by
    unfold readExact
    rw [h]
    rfl
  unfold readPacket readPacketLoop readChunk
  exact SM.bind_of_err (SM.bind_of_err e)

theorem cleanup_cut (c : Conn) (s : UInt8) (ps : List Bytes) (k : IoKind) (r : List Rx) (h : ∀ p ∈ ps, Spec.IsRow p)
    (hp : c.pendingResult = true) :
    cleanup (c.feed s ps (.fault k :: r)) =
      (.err (.protocol (.io k)), { c with rx := r, seqId := Spec.seqAfter s ps }) := by
  have key : ∀ (fuel : Nat) (s : UInt8), ps.length < fuel →
      cleanupLoop fuel (c.feed s ps (.fault k :: r))
      = (.err (.protocol (.io k)), { c with rx := r, seqId := Spec.seqAfter s ps }) := by
    induction ps with
    | nil =>
      intro fuel s hf
      cases fuel with
      | zero => simp at hf
      | succ fuel =>
        unfold cleanupLoop
        rw [SM.bind_of_err (readPacket_stops _ k r (by simp [Spec.framesAll]))]
        rfl
    | cons p ps ih =>
      intro fuel s hf
      cases fuel with
      | zero => simp at hf
      | succ fuel =>
        unfold cleanupLoop
        rw [SM.bind_of_ok (readPacket_feed c s _ _ _), SM.get_bind_apply,
          isLast_row _ (h p (by simp)), SM.ofOut_ok_bind_apply, if_neg (by simp),
          ih (fun q hq => h q (by simp [hq])) fuel _ (by simpa using hf)]
        rfl
  unfold cleanup
  have := feed_rx_length c s ps (.fault k :: r)
  rw [if_pos hp, SM.bind_of_err (key _ s (by omega))]

theorem collect_cut {R : Type} (rd : RowReader R) (rs : RSet) (c : Conn) (s : UInt8) (ps : List Bytes) (xs : List R)
    (k : IoKind) (r : List Rx) (hrs : rs.okPacket = none) (h : RowsAs rd rs.columns ps xs) :
    rs.collect rd (c.feed s ps (.fault k :: r)) =
      (.err (.protocol (.io k)), { c with rx := r, seqId := Spec.seqAfter s ps }) := by
  have key : ∀ (fuel : Nat) (s : UInt8), ps.length < fuel →
      rs.collectLoop rd fuel (c.feed s ps (.fault k :: r))
      = (.err (.protocol (.io k)), { c with rx := r, seqId := Spec.seqAfter s ps }) := by
    unfold RowsAs at h
    induction h with
    | nil =>
      intro fuel s hf
      cases fuel with
      | zero => simp at hf
      | succ fuel =>
        unfold RSet.collectLoop RSet.next
        rw [hrs, if_neg (by simp)]
        rw [SM.bind_of_err (SM.bind_of_err (readPacket_stops _ k r (by simp [Spec.framesAll])))]
        rfl
    | @cons p x ps xs hp _ ih =>
      obtain ⟨h1, vs, h2, h3⟩ := hp
      intro fuel s hf
      cases fuel with
      | zero => simp at hf
      | succ fuel =>
        unfold RSet.collectLoop
        rw [SM.bind_of_ok (next_row rd rs c s p _ _ hrs h1 h2 h3)]
        dsimp only
        rw [SM.bind_of_err (ih fuel _ (by simpa using hf))]
        rfl
  unfold RSet.collect
  have := feed_rx_length c s ps (.fault k :: r)
  exact key _ s (by omega)

/-- calls that begin with a command. -/
inductive Commanding : {α : Type} → Code α → M α → Prop
  | disconnect : Commanding Async.disconnect Verif.disconnect
  | query (sql : Str) : Commanding (Async.query sql) (Verif.query sql)
  | executeQuery (sql : Str) : Commanding (Async.executeQuery sql) (Verif.executeQuery sql)
  | prepare (sql : Str) : Commanding (Async.prepareStatement sql) (prepareStatement sql)

theorem Commanding.call {α : Type} {p : Code α} {m : M α} (h : Commanding p m) : Future p m := by
  cases h with
  | disconnect => exact .disconnect
  | query sql => exact .query sql
  | executeQuery sql => exact .executeQuery sql
  | prepare sql => exact .prepare sql

theorem Commanding.cleanup {α : Type} {p : Code α} {m : M α} (h : Commanding p m) :
    ∃ f : Option OkPacket → M α, m = Verif.cleanup >>= f := by
  cases h with
  | disconnect => exact ⟨_, rfl⟩
  | query sql => exact ⟨_, Twin.assoc _ _ _⟩
  | executeQuery sql => exact ⟨_, Twin.assoc _ _ _⟩
  | prepare sql => exact ⟨_, Twin.assoc _ _ _⟩

/-- a call that fails with the first failure it meets behind `tape` is suspended there. -/
theorem dropped_at {α : Type} {p : Code α} {m : M α} (h : Future p m) {T : Nat} {l l' : Loc} {es : List Poll}
    {d : Did} {w : Spot} (hx : Exec T p l es d (.waiting w l')) {l1 : Loc}
    (hm : ∀ k r tx wf, m (l.conn (d.rx ++ .fault k :: r) tx wf) = (.err (.protocol (.io k)), l1.conn r tx wf)) :
    w = .reading ∧ l' = l1 ∧ d.tx = [] ∧ d.wf = [] := by
  cases w with
  | writing n =>
    have e := (Twin.call h).drops hx .timedOut [.fault .closed] [] []
    simp only [Spot.rx, List.nil_append] at e
    rw [hm] at e
    cases (Prod.mk.inj e).1
  | reading =>
    have e := (Twin.call h).drops hx .timedOut [] [] []
    simp only [Spot.rx, Spot.wf, List.nil_append, List.append_nil] at e
    rw [hm] at e
    have e2 := (Prod.mk.inj e).2
    simp only [Loc.conn, Conn.mk.injEq] at e2
    obtain ⟨-, a2, a3, a4, a5, a6, a7⟩ := e2
    refine ⟨rfl, ?_, a2.symm, a3⟩
    cases l'; cases l1; simp_all

/-- **C91**, between two rows: a command is dropped while it discards the rows of an abandoned result, having read these
and nothing else: the next command discards the others, is written as a whole, and what follows is its answer. -/
theorem C91_discarding_partial {α : Type} {p : Code α} {m : M α} (h : Commanding p m) {T : Nat} {l l' : Loc}
    {es : List Poll} {d : Did} {w : Spot} (hx : Exec T p l es d (.waiting w l')) (hp : l.pendingResult = true)
    (ps qs : List Bytes) (hps : ∀ q ∈ ps, Spec.IsRow q) (hqs : ∀ q ∈ qs, Spec.IsRow q)
    (hd : d.rx = rxOf (framesAll l.seqId ps)) (status warnings : Nat) (r : List Rx) (tx : Bytes) (cmd : Command)
    (data : Bytes) :
    executeCommand cmd data
        (l'.conn (rxOf (framesAll (seqAfter l.seqId ps) (qs ++ [terminator status warnings])) ++ r) (tx ++ d.tx) []) =
      (.ok (), { l.conn r (tx ++ frames 0 (cmd.toByte :: data)) [] with
        seqId := UInt8.ofNat (frameCount (cmd.toByte :: data)), pendingResult := false }) := by
  obtain ⟨f, rfl⟩ := h.cleanup
  obtain ⟨-, rfl, ht, -⟩ := dropped_at h.call hx (l1 := { l with seqId := seqAfter l.seqId ps }) (fun k r tx wf => by
    rw [hd]
    exact SM.bind_of_err (cleanup_cut (l.conn [] tx wf) l.seqId ps k r hps hp))
  rw [ht, List.append_nil]
  unfold executeCommand
  have h2 := cleanup_rows (l.conn [] tx []) (seqAfter l.seqId ps) qs [] status warnings r hqs hp
  have h3 : cleanup (Loc.conn { l with seqId := seqAfter l.seqId ps }
      (rxOf (framesAll (seqAfter l.seqId ps) (qs ++ [terminator status warnings])) ++ r) tx []) = _ := h2
  rw [SM.bind_of_ok h3, SM.modify_bind_apply, writePacket_ok _ _ rfl]
  simp [framesAll, Loc.conn]

/-- **C91**, between two rows: the reading of a result is dropped, having read some rows as a whole: likewise. -/
theorem C91_reading_partial {R : Type} (rd : RowReader R) (rs : RSet) (hrs : rs.okPacket = none) {T : Nat} {l l' : Loc}
    {es : List Poll} {d : Did} {w : Spot} (hx : Exec T (Async.collect rd rs) l es d (.waiting w l'))
    (hp : l.pendingResult = true) (ps qs : List Bytes) (xs : List R) (hps : RowsAs rd rs.columns ps xs)
    (hqs : ∀ q ∈ qs, Spec.IsRow q) (hd : d.rx = rxOf (framesAll l.seqId ps)) (status warnings : Nat) (r : List Rx)
    (tx : Bytes) (cmd : Command) (data : Bytes) :
    executeCommand cmd data
        (l'.conn (rxOf (framesAll (seqAfter l.seqId ps) (qs ++ [terminator status warnings])) ++ r) (tx ++ d.tx) []) =
      (.ok (), { l.conn r (tx ++ frames 0 (cmd.toByte :: data)) [] with
        seqId := UInt8.ofNat (frameCount (cmd.toByte :: data)), pendingResult := false }) := by
  obtain ⟨-, rfl, ht, -⟩ := dropped_at (.collect rd rs) hx (l1 := { l with seqId := seqAfter l.seqId ps })
    (fun k r tx wf => by
      rw [hd]
      exact collect_cut rd rs (l.conn [] tx wf) l.seqId ps xs k r hrs hps)
  rw [ht, List.append_nil]
  unfold executeCommand
  have h2 := cleanup_rows (l.conn [] tx []) (seqAfter l.seqId ps) qs [] status warnings r hqs hp
  have h3 : cleanup (Loc.conn { l with seqId := seqAfter l.seqId ps }
      (rxOf (framesAll (seqAfter l.seqId ps) (qs ++ [terminator status warnings])) ++ r) tx []) = _ := h2
  rw [SM.bind_of_ok h3, SM.modify_bind_apply, writePacket_ok _ _ rfl]
  simp [framesAll, Loc.conn]

theorem leBytes_ne (n : Nat) : leBytes 4 n ≠ [] := by
  intro h
  have := congrArg List.length h
  rw [length_leBytes] at this
  simp at this

/-- **C91**, before anything has been written: a statement is dropped before a byte of it has been accepted: only the
sequence number has changed, with which no command begins (`C91_sequence`).
Missing in these three: calls that are dropped inside a packet or while an answer is due (`C91_late_violated`,
`C91_torn_violated`, `C91_forged_violated`). -/
theorem C91_unsent_partial (sql : Str) {T : Nat} {l l' : Loc} {es : List Poll} {d : Did} {w : Spot}
    (hx : Exec T (Async.executeQuery sql) l es d (.waiting w l')) (hp : l.pendingResult = false) (ht : d.tx = []) :
    d.rx = [] ∧ l' = { l with seqId := 0 } := by
  have hne : frames 0 (0x03 :: utf8 sql) ≠ [] := by
    intro h
    have := length_frames 0 (0x03 :: utf8 sql)
    rw [h] at this
    simp at this
    omega
  -- nothing has been read: the write had not been finished
  have hcmd : Exec T (Async.executeCommand .query (utf8 sql)) l es d (.waiting w l') := by
    cases hx with
    | wait h1 => exact h1
    | ok h1 h2 =>
      rename_i l1 es1 d d' b
      exfalso
      obtain ⟨t, f, s, o, e1, -, e3⟩ := writePacket_gen (0x03 :: utf8 sql)
        { l.conn (d.rx ++ []) [] (d.wf ++ []) with seqId := 0 }
      have e := (Twin.executeCommand .query (utf8 sql)).sound h1 [] [] []
      have he : executeCommand .query (utf8 sql) (l.conn (d.rx ++ []) [] (d.wf ++ [])) =
          (o, { l.conn (d.rx ++ []) [] (d.wf ++ []) with tx := [] ++ t, wfaults := f, seqId := s }) := by
        unfold executeCommand
        rw [SM.bind_of_ok (cleanup_clean _ hp), SM.modify_bind_apply]
        exact e1
      rw [he] at e
      obtain ⟨rfl, hc⟩ := Prod.mk.inj e
      simp only [Loc.conn, Conn.mk.injEq, List.nil_append] at hc
      rcases e3 with ⟨-, e4, -⟩ | ⟨x, e4⟩
      · simp only [Did.and, List.append_eq_nil_iff] at ht
        exact hne (e4.symm.trans (hc.2.1.trans ht.1))
      · cases e4
  unfold Async.executeCommand at hcmd
  -- there is nothing to discard
  have clean : ∀ {es d r}, Exec T Async.cleanup l es d r → d = .none ∧ r = .done (.ok none) l es := by
    intro es d r h
    cases h with
    | ok h1 h2 =>
      obtain ⟨rfl, h1⟩ := h1
      cases h1
      dsimp only at h2
      rw [hp] at h2
      obtain ⟨rfl, rfl⟩ := h2
      exact ⟨rfl, rfl⟩
    | err h1 => cases h1.2
    | panic h1 => cases h1.2
    | wait h1 => cases h1.2
  cases hcmd with
  | wait h1 => exact absurd (clean h1).2 (by intro h; cases h)
  | ok h1 h2 =>
    obtain ⟨rfl, e⟩ := clean h1
    cases e
    cases h2 with
    | wait h3 => cases h3.2
    | ok h3 h4 =>
      obtain ⟨rfl, e⟩ := h3
      cases e
      unfold Async.writePacket at h4
      have hchunks : ∀ {d r}, Exec T (Async.writeChunks (0x03 :: utf8 sql)) { l with seqId := 0 } es d r → d.tx = [] →
          d.rx = [] ∧ (∀ u l1 rest, r ≠ .done (.ok u) l1 rest) ∧ ∀ w l', r = .waiting w l' → l' = { l with seqId := 0 } := by
        intro d r h ht
        rw [Async.writeChunks, dif_neg (by simp)] at h
        cases h with
        | err h1 => cases h1.2
        | panic h1 => cases h1.2
        | wait h1 => cases h1.2
        | ok h1 h2 =>
          obtain ⟨rfl, e⟩ := h1
          cases e
          dsimp only at h2
          have hw : ∀ {bs : Bytes} {es : List Poll} {d : Did} {r : Ran Unit} {l : Loc}, bs ≠ [] →
              Exec T (.write bs) l es d r → d.tx = [] →
              d.rx = [] ∧ (∀ u l1 rest, r ≠ .done (.ok u) l1 rest) ∧ ∀ w l', r = .waiting w l' → l' = l := by
            intro bs es d r l hb h ht
            cases h with
            | wait h => exact ⟨rfl, fun _ _ _ h => (by cases h), fun _ _ h => (by cases h; rfl)⟩
            | done h =>
              refine ⟨rfl, fun _ _ _ h2 => ?_, fun _ _ h => (by cases h)⟩
              rcases (pollWrite_sound T _ bs 0).1 _ _ _ _ h with ⟨-, hw⟩ | ⟨k, rfl, -⟩
              · exact hb (hw.symm.trans ht)
              · simp [ioOut] at h2
          cases h2 with
          | err h3 =>
            obtain ⟨a, -⟩ := hw (leBytes_ne _) h3 (by simpa [Did.and, Did.none] using ht)
            exact ⟨by simp [Did.and, Did.none, a], fun _ _ _ h => (by cases h), fun _ _ h => (by cases h)⟩
          | panic h3 =>
            obtain ⟨a, -⟩ := hw (leBytes_ne _) h3 (by simpa [Did.and, Did.none] using ht)
            exact ⟨by simp [Did.and, Did.none, a], fun _ _ _ h => (by cases h), fun _ _ h => (by cases h)⟩
          | wait h3 =>
            obtain ⟨a, -, b⟩ := hw (leBytes_ne _) h3 (by simpa [Did.and, Did.none] using ht)
            exact ⟨by simp [Did.and, Did.none, a], fun _ _ _ h => (by cases h), fun _ _ h => (by cases h; exact b _ _ rfl)⟩
          | ok h3 h4 =>
            obtain ⟨-, b, -⟩ := hw (leBytes_ne _) h3 (by
              simp only [Did.and, Did.none, List.nil_append, List.append_eq_nil_iff] at ht
              exact ht.1)
            exact absurd rfl (b _ _ _)
      cases h4 with
      | wait h5 =>
        obtain ⟨a1, -, a3⟩ := hchunks h5 (by simpa [Did.and, Did.none] using ht)
        exact ⟨by simp [Did.and, Did.none, a1], a3 _ _ rfl⟩
      | ok h5 h6 =>
        obtain ⟨-, a2, -⟩ := hchunks h5 (by
          simp only [Did.and, Did.none, List.nil_append, List.append_eq_nil_iff] at ht
          exact ht.1)
        exact absurd rfl (a2 _ _ _)

/-- commands begin with their own sequence number. -/
theorem C91_sequence (cmd : Command) (data : Bytes) (l : Loc) (s : UInt8) (hp : l.pendingResult = false) (rx : List Rx)
    (tx : Bytes) (wf : List (Option (Nat × IoKind))) :
    executeCommand cmd data (({ l with seqId := s } : Loc).conn rx tx wf) = executeCommand cmd data (l.conn rx tx wf) := by
  unfold executeCommand
  rw [SM.bind_of_ok (cleanup_clean _ hp), SM.bind_of_ok (cleanup_clean _ hp)]
  rfl

/-! ### where it does -/

theorem Exec.bind_ok {α β : Type} {T : Nat} {m : Code β} {k : β → Code α} {l l1 : Loc} {es es1 : List Poll} {d d' : Did}
    {b : β} {r : Ran α} (h1 : Exec T m l es d (.done (.ok b) l1 es1)) (h2 : Exec T (k b) l1 es1 d' r) :
    Exec T (m >>= k) l es (d.and d') r := Act.Bind.ok h1 h2

theorem Exec.bind_wait {α β : Type} {T : Nat} {m : Code β} {k : β → Code α} {l l1 : Loc} {es : List Poll} {d : Did}
    {w : Spot} (h : Exec T m l es d (.waiting w l1)) : Exec T (m >>= k) l es d (.waiting w l1) := Act.Bind.wait h

theorem Did.none_and (d : Did) : Did.none.and d = d := by
  simp [Did.none, Did.and]

theorem Exec.get_bind {α : Type} {T : Nat} {k : Loc → Code α} {l : Loc} {es : List Poll} {d : Did} {r : Ran α}
    (h : Exec T (k l) l es d r) : Exec T (Code.get >>= k) l es d r := by
  rw [← Did.none_and d]
  exact Act.Bind.ok ⟨rfl, rfl⟩ h

theorem Exec.modify_bind {α : Type} {T : Nat} {f : Loc → Loc} {k : Unit → Code α} {l : Loc} {es : List Poll} {d : Did}
    {r : Ran α} (h : Exec T (k ()) (f l) es d r) : Exec T (Code.modify f >>= k) l es d r := by
  rw [← Did.none_and d]
  exact Act.Bind.ok ⟨rfl, rfl⟩ h

/-- nothing has arrived. -/
theorem readPacket_waits (T : Nat) (l : Loc) :
    Exec T Async.readPacket l [] ⟨[], [], [], 0, 1⟩ (.waiting .reading l) := by
  refine Act.Loop.wait ?_
  unfold Async.packetTurn Async.readChunk
  exact Exec.bind_wait (Exec.bind_wait (Act.Read.wait rfl))

/-- the polls with which a statement is written. -/
theorem written (T : Nat) (sql : Str) (l : Loc) (hp : l.pendingResult = false) :
    ∃ es d, (∀ rest, Exec T (Async.executeCommand .query (utf8 sql)) l (es ++ rest) d
        (.done (.ok ()) { l with seqId := UInt8.ofNat (frameCount (0x03 :: utf8 sql)) } rest)) ∧
      d.rx = [] ∧ d.tx = frames 0 (0x03 :: utf8 sql) := by
  obtain ⟨es, d, o, l', rx', h1, ⟨n, h2, h3⟩, -, h4⟩ :=
    (Twin.executeCommand .query (utf8 sql)).real T l [.fault .closed] []
  rw [executeCommand_clean .query (utf8 sql) _ hp rfl] at h4
  obtain ⟨ho, hc⟩ := Prod.mk.inj h4
  simp only [Loc.conn, List.nil_append, Conn.mk.injEq] at hc
  obtain ⟨a1, a2, -, a4, a5, a6, a7⟩ := hc
  refine ⟨es, d, fun rest => ?_, ?_, a2.symm⟩
  · have := h1 rest
    rw [← ho] at this
    rw [show ({ l with seqId := UInt8.ofNat (frameCount (0x03 :: utf8 sql)) } : Loc) = l' by
      cases l'; simp only at a4 a5 a6 a7; rw [← a4, ← a5, ← a6, ← a7]; rfl]
    exact this
  · by_cases h0 : n = 0
    · subst h0
      rw [← a1] at h2
      simpa using h2
    · rw [h3 h0] at a1
      cases a1

/-- **C91** is violated: a statement is dropped while it waits for its answer, of which nothing has arrived yet. Whatever
the next statement is, it is told the answer to the first one. -/
theorem C91_late_violated (T : Nat) (one two : Str) (l : Loc) (hp : l.pendingResult = false)
    (h1 : (utf8 one).length + 1 < maxFrame) (h2 : (utf8 two).length + 1 < maxFrame)
    (hs : hasFlag32 l.data.capabilities Cap.SESSION_TRACK = false) (a i : UInt64) (status warnings : UInt16) (msg : Str)
    (hm : (utf8 msg).length < 2 ^ 64) :
    ∃ es d l', Exec T (Async.executeQuery one) l es d (.waiting .reading l') ∧ d.rx = [] ∧
      d.tx = frames 0 (0x03 :: utf8 one) ∧
      ∀ r tx, (executeQuery two (l'.conn
        (rxOf (frames 1 (okPacket a.toNat i.toNat status.toNat warnings.toNat msg)) ++ r) tx [])).1 =
          .ok (okOf a i status warnings msg) := by
  obtain ⟨es, d, k1, k2, k3⟩ := written T one l hp
  have f1 : frameCount (0x03 :: utf8 one) = 1 := frameCount_short _ (by rw [List.length_cons]; exact h1)
  have f2 : frameCount (0x03 :: utf8 two) = 1 := frameCount_short _ (by rw [List.length_cons]; exact h2)
  rw [f1] at k1
  refine ⟨es, d.and ⟨[], [], [], 0, 1⟩, { l with seqId := UInt8.ofNat 1 },
    Exec.bind_ok (by simpa using k1 []) (Exec.bind_wait (Exec.bind_wait (readPacket_waits T _))), ?_, ?_, fun r tx => ?_⟩
  · simp [Did.and, k2]
  · simp [Did.and, k3]
  · unfold executeQuery
    rw [SM.bind_of_ok (executeCommand_clean .query (utf8 two) _ hp rfl)]
    rw [show Command.query.toByte :: utf8 two = 0x03 :: utf8 two from rfl, f2]
    obtain ⟨q, e⟩ := readResponse_ok
      { (({ l with seqId := UInt8.ofNat 1 } : Loc).conn
        (rxOf (frames 1 (okPacket a.toNat i.toNat status.toNat warnings.toNat msg)) ++ r) tx []) with
        tx := tx ++ frames 0 (0x03 :: utf8 two), seqId := UInt8.ofNat 1 } r a i status warnings msg hm (Or.inl hs) rfl
    exact (congrArg Prod.fst (SM.bind_of_ok e)).trans rfl

/-- the header of a statement is accepted, and `k` bytes of it. -/
theorem torn_at (T : Nat) (sql : Str) (l : Loc) (hp : l.pendingResult = false) (k : Nat) (hk : k ≤ (utf8 sql).length)
    (hlen : (utf8 sql).length + 1 < maxFrame) :
    ∃ es, Exec T (Async.executeQuery sql) l es
      ⟨[], leBytes 3 ((utf8 sql).length + 1) ++ [0] ++ (0x03 :: utf8 sql).take k, [none], 0, 2⟩
      (.waiting (.writing k) { l with seqId := 0 }) := by
  have hM : (0x03 :: utf8 sql).length < MAX_PAYLOAD_LEN := by
    rw [MAX_eq, List.length_cons]; exact hlen
  have hM2 : MAX_PAYLOAD_LEN < 2 ^ 24 := by unfold MAX_PAYLOAD_LEN; omega
  have hm : min (Command.query.toByte :: utf8 sql).length MAX_PAYLOAD_LEN = (0x03 :: utf8 sql).length :=
    Nat.min_eq_left (Nat.le_of_lt hM)
  refine ⟨⟨0, .wrote 4⟩ :: if k = 0 then [] else [⟨0, .wrote k⟩], ?_⟩
  unfold Async.executeQuery
  refine Exec.bind_wait ?_
  unfold Async.executeCommand
  have hcl : ∀ es, Exec T Async.cleanup l es .none (.done (.ok none) l es) := by
    intro es
    unfold Async.cleanup
    refine Exec.get_bind ?_
    rw [hp]
    exact ⟨rfl, rfl⟩
  rw [← Did.none_and ⟨_, _, _, _, _⟩]
  refine Exec.bind_ok (hcl _) (Exec.modify_bind ?_)
  unfold Async.writePacket
  refine Exec.bind_wait ?_
  rw [Async.writeChunks, dif_neg (by simp)]
  refine Exec.get_bind ?_
  simp only [hm]
  rw [header_bytes _ _ (by omega)]
  rw [show (⟨[], leBytes 3 ((utf8 sql).length + 1) ++ [0] ++ List.take k (3 :: utf8 sql), [none], 0, 2⟩ : Did) =
    Did.and ⟨[], leBytes 3 ((utf8 sql).length + 1) ++ [0], [none], 0, 1⟩ ⟨[], List.take k (3 :: utf8 sql), [], 0, 1⟩ from rfl]
  refine Exec.bind_ok (b := ()) (Act.Write.done (r := .ok ()) (rest := if k = 0 then [] else [⟨0, .wrote k⟩]) ?_) (Exec.bind_wait ?_)
  · obtain ⟨a, b, c, hh⟩ : ∃ a b c, leBytes 3 ((utf8 sql).length + 1) = [a, b, c] := ⟨_, _, _, rfl⟩
    rw [List.length_cons, hh]
    by_cases h0 : k = 0
    · simp [pollWrite, h0]
    · simp [pollWrite, h0]
  · rw [List.take_of_length_le (by simp)]
    have hk' : (List.take k (3 :: utf8 sql)).length = k := by
      rw [List.length_take, List.length_cons]; omega
    conv => rhs; rw [← hk']
    refine Act.Write.wait ?_
    by_cases h0 : k = 0
    · subst h0
      simp [pollWrite]
    · obtain ⟨j, rfl⟩ : ∃ j, k = j + 1 := ⟨k - 1, by omega⟩
      rw [show Command.query.toByte = 3 from rfl]
      simp [pollWrite, show ¬ (utf8 sql).length ≤ j by omega]

/-- **C91** is violated: a statement is dropped while it is written, `k` bytes of it are accepted. The connection is used
for another one; the server reads one command, which is neither. -/
theorem C91_torn_violated (T : Nat) (one two : Str) (k : Nat) (l : Loc) (hp : l.pendingResult = false)
    (hlen : (utf8 one).length + 1 < maxFrame) (hk : k ≤ (utf8 one).length)
    (hfit : (utf8 one).length + 1 ≤ k + (frames 0 (0x03 :: utf8 two)).length) (rx : List Rx) :
    let p := 0x03 :: utf8 one
    let q := frames 0 (0x03 :: utf8 two)
    ∃ es d l', Exec T (Async.executeQuery one) l es d (.waiting (.writing k) l') ∧
      readCommands (executeQuery two (l'.conn rx d.tx [])).2.tx =
        (p.take k ++ q.take (p.length - k)) :: readCommands (q.drop (p.length - k)) := by
  intro p q
  obtain ⟨es, hx⟩ := torn_at T one l hp k hk hlen
  refine ⟨es, _, _, hx, ?_⟩
  have e := C91_like_failure (.executeQuery one) hx .closed rx [] []
  have h := C86_torn_violated one two k .closed (l.conn rx [] [none, some (k, .closed)]) hp rfl rfl hlen hk hfit
  have e' : executeQuery one (l.conn rx [] [none, some (k, .closed)]) = _ := e
  rw [e'] at h
  exact h.2

/-- dropped inside a row, behind `x`. -/
theorem forged {R : Type} (rd : RowReader R) (rs : RSet) (hrs : rs.okPacket = none) (T : Nat) (two : Str)
    (l : Loc) (hp : l.pendingResult = true) (hs : hasFlag32 l.data.capabilities Cap.SESSION_TRACK = false)
    (h2 : (utf8 two).length + 1 < maxFrame) (x : Bytes) (status' warnings' : Nat) (a i : UInt64)
    (status warnings : UInt16) (msg : Str) (hm : (utf8 msg).length < 2 ^ 64) :
    let y := frames l.seqId (terminator status' warnings') ++
      frames 1 (okPacket a.toNat i.toNat status.toNat warnings.toNat msg)
    (x ++ y).length < maxFrame →
    ∃ es d l' rest, Exec T (Async.next rd rs) l es d (.waiting .reading l') ∧
      rxOf (frames l.seqId (x ++ y)) = d.rx ++ rest ∧
      ∀ r tx, (executeQuery two (l'.conn (rest ++ r) tx [])).1 = .ok (okOf a i status warnings msg) := by
  intro y hl
  have hy : 0 < y.length := by
    have : 0 < (terminator status' warnings').length := by simp [terminator]
    have := length_frames l.seqId (terminator status' warnings')
    simp only [y, List.length_append]
    omega
  have hn : (x ++ y).length ≠ 0 := by rw [List.length_append]; omega
  have hM : (x ++ y).length < MAX_PAYLOAD_LEN := by rw [MAX_eq]; exact hl
  have hM2 : MAX_PAYLOAD_LEN < 2 ^ 24 := by unfold MAX_PAYLOAD_LEN; omega
  refine ⟨⟨0, .bytes (leBytes 3 (x ++ y).length ++ [l.seqId])⟩ :: if x = [] then [] else [⟨0, .bytes x⟩],
    Did.and ⟨rxOf (leBytes 3 (x ++ y).length ++ [l.seqId]), [], [], 0, 1⟩ ⟨rxOf x, [], [], 0, 1⟩, l, rxOf y, ?_, ?_, ?_⟩
  · unfold Async.next
    rw [hrs, if_neg (by simp)]
    refine Exec.bind_wait (Act.Loop.wait ?_)
    unfold Async.packetTurn
    refine Exec.bind_wait ?_
    unfold Async.readChunk
    obtain ⟨a, b, c, hh⟩ : ∃ a b c, leBytes 3 (x ++ y).length = [a, b, c] := ⟨_, _, _, rfl⟩
    have hle : leNat [a, b, c] = (x ++ y).length := by
      rw [← hh, leNat_leBytes]
      exact Nat.mod_eq_of_lt (by omega)
    rw [hh]
    refine Exec.bind_ok (b := [a, b, c, l.seqId]) (l1 := l)
      (Act.Read.done (r := .ok [a, b, c, l.seqId]) (rest := if x = [] then [] else [⟨0, .bytes x⟩]) ?_) ?_
    · by_cases h0 : x = []
      · simp [pollRead, h0, rxOf]
      · simp [pollRead, h0, rxOf]
    · dsimp only
      rw [hle, if_neg hn]
      refine Exec.bind_wait (Act.Read.wait ?_)
      by_cases h0 : x = []
      · subst h0
        rw [if_pos rfl, pollRead, if_neg hn]
        rfl
      · rw [if_neg h0, pollRead, if_neg hn]
        dsimp only
        rw [if_neg h0, pollRead, List.take_of_length_le (by simp), if_neg (by rw [List.length_append]; omega)]
        simp [rxOf]
  · rw [frames_short _ _ hM]
    simp [Did.and, rxOf]
  · intro r tx
    have h3 := cleanup_rows (l.conn [] tx []) l.seqId [] [] status' warnings'
      (rxOf (frames 1 (okPacket a.toNat i.toNat status.toNat warnings.toNat msg)) ++ r) (by simp) hp
    have h4 : l.conn (rxOf y ++ r) tx [] = (l.conn [] tx []).feed l.seqId ([] ++ [terminator status' warnings'])
        (rxOf (frames 1 (okPacket a.toNat i.toNat status.toNat warnings.toNat msg)) ++ r) := by
      simp [Conn.feed, Loc.conn, framesAll, y, rxOf]
    rw [← h4] at h3
    have f2 : frameCount (0x03 :: utf8 two) = 1 := frameCount_short _ (by rw [List.length_cons]; exact h2)
    have h5 : executeCommand .query (utf8 two) (l.conn (rxOf y ++ r) tx []) =
        (.ok (), { l.conn (rxOf (frames 1 (okPacket a.toNat i.toNat status.toNat warnings.toNat msg)) ++ r)
          (tx ++ frames 0 (0x03 :: utf8 two)) [] with seqId := 1, pendingResult := false }) := by
      unfold executeCommand
      rw [SM.bind_of_ok h3, SM.modify_bind_apply, writePacket_ok _ _ rfl]
      rw [show Command.query.toByte :: utf8 two = 0x03 :: utf8 two from rfl, f2]
      simp [framesAll, Loc.conn]
    unfold executeQuery
    rw [SM.bind_of_ok h5]
    obtain ⟨q, e⟩ := readResponse_ok { l.conn (rxOf (frames 1 (okPacket a.toNat i.toNat status.toNat warnings.toNat msg)) ++ r)
          (tx ++ frames 0 (0x03 :: utf8 two)) [] with seqId := 1, pendingResult := false } r a i status warnings msg hm
          (Or.inl hs) rfl
    exact (congrArg Prod.fst (SM.bind_of_ok e)).trans rfl

/-- **C91** is violated: the reading of a row is dropped inside the row. What is left of the row is taken for packets by
the next statement, so a value in a table, here one that ends in `y`, can be such that the next statement is told what
the value says: `a` rows affected. -/
theorem C91_forged_violated {R : Type} (rd : RowReader R) (rs : RSet) (hrs : rs.okPacket = none) (T : Nat) (two : Str)
    (l : Loc) (hp : l.pendingResult = true) (hs : hasFlag32 l.data.capabilities Cap.SESSION_TRACK = false)
    (h2 : (utf8 two).length + 1 < maxFrame) (v : Bytes) (status' warnings' : Nat) (a i : UInt64)
    (status warnings : UInt16) (msg : Str) (hm : (utf8 msg).length < 2 ^ 64) :
    let y := frames l.seqId (terminator status' warnings') ++
      frames 1 (okPacket a.toNat i.toNat status.toNat warnings.toNat msg)
    (textCells [some (v ++ y)]).length < maxFrame →
    ∃ es d l' rest, Exec T (Async.next rd rs) l es d (.waiting .reading l') ∧
      rxOf (frames l.seqId (textCells [some (v ++ y)])) = d.rx ++ rest ∧
      ∀ r tx, (executeQuery two (l'.conn (rest ++ r) tx [])).1 = .ok (okOf a i status warnings msg) := by
  intro y hl
  have e : textCells [some (v ++ y)] = lenenc (v ++ y).length ++ v ++ y := by
    simp [textCells, lenencStr]
  rw [e] at hl ⊢
  exact forged rd rs hrs T two l hp hs h2 _ status' warnings' a i status warnings msg hm hl

/-! ### cases -/

namespace C91ex


def rd : RowReader (List Value) := textReader { f32 := fun _ => none, f64 := fun _ => none } mkPlain

/-- where a program is suspended, and what it has written. -/
def spot {α : Type} : Option (Did × Ran α) → Option (Spot × Bytes × Loc)
  | some (d, .waiting w l) => some (w, d.tx, l)
  | _ => none

/-- how many rows a statement is told to have affected. -/
def told (l : Loc) (rx : Bytes) : Option UInt64 :=
  match (executeQuery "b".toList (l.conn (rxOf rx) [] [])).1 with
  | .ok ok => some ok.affectedRows
  | _ => none

/-- "a" is written; nothing arrives. -/
def late := spot ((Async.executeQuery "a".toList).poll 10 5 (exConn []).loc
  [⟨0, .wrote 4⟩, ⟨0, .wrote 2⟩, ⟨3, .notReady⟩, ⟨3, .notReady⟩])

/-- half of "abc" is written. -/
def torn := spot ((Async.executeQuery "abc".toList).poll 10 5 (exConn []).loc [⟨0, .wrote 4⟩, ⟨0, .wrote 2⟩, ⟨3, .notReady⟩])

/-- a result with two numbers is abandoned; a statement discards the first and is dropped. -/
def rows : Bytes := framesAll 4 [[1, 0x37], [1, 0x38], terminator 2 0]
def between := spot ((Async.executeQuery "a".toList).poll 10 5
  { (exConn []).loc with pendingResult := true, seqId := 4 } [⟨0, .bytes (rows.take 4)⟩, ⟨0, .bytes ((rows.drop 4).take 2)⟩])

/-- a value that is an end of rows and an answer. -/
def value : Bytes := frames 4 (terminator 2 0) ++ frames 1 (okPacket 99 0 2 0 [])
def row : Bytes := frames 4 (textCells [some value])
def inside := spot ((Async.next rd ⟨[], none⟩).poll 10 5
  { (exConn []).loc with pendingResult := true, seqId := 4 } [⟨0, .bytes (row.take 4)⟩, ⟨0, .bytes ((row.drop 4).take 1)⟩])

end C91ex

open C91ex in
/-- Dropped while waiting for its answer: the next statement is told the 7 rows of the first, not its own 5. Dropped
while it is written: the server is left with 2 of 4 bytes. Dropped between the rows it discards: the next statement
discards the other and is told its own. Dropped inside a row: the next statement is told the 99 rows of the value. -/
theorem C91_example :
    (late.map fun x => (x.1, x.2.1, told x.2.2 (frames 1 (okPacket 7 0 2 0 []) ++ frames 1 (okPacket 5 0 2 0 [])))) =
      some (.reading, [2, 0, 0, 0, 3, 97], some 7) ∧
    (torn.map fun x => (x.1, x.2.1)) = some (.writing 2, [4, 0, 0, 0, 3, 97]) ∧
    (between.map fun x => (x.1, x.2.1, told x.2.2 (rows.drop 6 ++ frames 1 (okPacket 5 0 2 0 [])))) =
      some (.reading, [], some 5) ∧
    (inside.map fun x => (x.1, x.2.1, told x.2.2 (row.drop 5 ++ frames 5 (terminator 2 0) ++ frames 1 (okPacket 5 0 2 0 [])))) =
      some (.reading, [], some 99) := by
  refine ⟨?_, ?_, ?_, ?_⟩ <;> decide +kernel

end Verif

import Verif.Proofs.MigratorWire
import Verif.Props.C44_Migrator
import Verif.Props.C53_NoPanic
import Verif.Props.C62_StmtClose
import Verif.Proofs.SqlServer

/-!
# C68 — migrating is executing a sequence of statements

For every state of the connection and whatever the server sends, be it nonsense.
-/

namespace Verif

open Spec (execAll Applied)

/-! ### the statements -/

/-- Going up is executing, for every migration still to be applied in order, its own statement and
then its record, up to the first that fails (whose outcome is the outcome); afterwards the
migrator takes for applied what it took for applied before, and the migrations whose own statement
was answered with OK. -/
theorem C68_up (upSql downSql : MigKey → Str) (ms : List MigList) (hp : Proper ms)
    (t : Option Version) (s : MigWire) :
    let w := (wired upSql downSql).upToVersion t ms s
    let todo := Spec.pendingUp t ms s.applied
    (w.1, w.2.conn) = execAll (Spec.upStatements upSql todo) s.conn ∧
    ∀ k, Applied w.2.applied k ↔ Applied s.applied k ∨
      ∃ i, todo[i]? = some k ∧
        (execAll ((Spec.upStatements upSql todo).take (2 * i + 1)) s.conn).1 = .ok () := by
  have hn : ((Spec.declared ms).filter (Spec.upTo t)).Nodup := hp.nodup.filter _
  have he : ((Spec.declared ms).filter (Spec.upTo t)).filter (fun k => !decide (Applied s.applied k)) =
      Spec.pendingUp t ms s.applied := by
    rw [List.filter_filter]
    exact List.filter_congr fun k _ => Bool.and_comm _ _
  have h := upKeys_wired upSql downSql _ hn s
  rw [he, ← MigEnv.upToVersion_eq] at h
  obtain ⟨h1, h2, h3, _⟩ := h
  exact ⟨Prod.ext h1 h2, h3⟩

theorem tidy_up (upSql downSql : MigKey → Str) (ms : List MigList) (hp : Proper ms)
    (t : Option Version) (s : MigWire) (h : Tidy s.applied) :
    Tidy ((wired upSql downSql).upToVersion t ms s).2.applied := by
  have hn : ((Spec.declared ms).filter (Spec.upTo t)).Nodup := hp.nodup.filter _
  have h' := upKeys_wired upSql downSql _ hn s
  rw [← MigEnv.upToVersion_eq] at h'
  exact h'.2.2.2 h

/-- Going down, likewise: the statements of the applied migrations above the target, the last
first, each followed by the removal of its record. -/
theorem C68_down (upSql downSql : MigKey → Str) (ms : List MigList) (hp : Proper ms)
    (t : Version) (s : MigWire) (hs : ∀ v, (s.applied v).Nodup) :
    let w := (wired upSql downSql).downToVersion t ms s
    let todo := Spec.pendingDown t ms s.applied
    (w.1, w.2.conn) = execAll (Spec.downStatements downSql todo) s.conn ∧
    ∀ k, Applied w.2.applied k ↔ Applied s.applied k ∧
      ¬ ∃ i, todo[i]? = some k ∧
        (execAll ((Spec.downStatements downSql todo).take (2 * i + 1)) s.conn).1 = .ok () := by
  have hn : ((Spec.declared ms).reverse.filter (above t)).Nodup := hp.nodup_reverse.filter _
  have he : ((Spec.declared ms).reverse.filter (above t)).filter (fun k => decide (Applied s.applied k)) =
      Spec.pendingDown t ms s.applied := by
    unfold Spec.pendingDown
    rw [List.filter_filter, ← List.filter_reverse]
    exact List.filter_congr fun k _ => Bool.and_comm _ _
  have h := downKeys_wired upSql downSql _ hn s hs
  rw [he, ← MigEnv.downToVersion_eq] at h
  obtain ⟨h1, h2, h3, _⟩ := h
  exact ⟨Prod.ext h1 h2, h3⟩

/-- Moving to a version is executing the statements of going up to it and then those of going down
to it; what is to be done is decided by the view at the beginning. -/
theorem C68_to_version (upSql downSql : MigKey → Str) (ms : List MigList) (hp : Proper ms)
    (t : Version) (s : MigWire) (hs : ∀ v, (s.applied v).Nodup) :
    let w := (wired upSql downSql).toVersion t ms s
    (w.1, w.2.conn) = execAll (Spec.upStatements upSql (Spec.pendingUp (some t) ms s.applied) ++
      Spec.downStatements downSql (Spec.pendingDown t ms s.applied)) s.conn := by
  intro w
  obtain ⟨h1, h2⟩ := C68_up upSql downSql ms hp (some t) s
  have ht := tidy_up upSql downSql ms hp (some t) s hs
  show (((wired upSql downSql).toVersion t ms s).1, ((wired upSql downSql).toVersion t ms s).2.conn) = _
  unfold MigEnv.toVersion
  rw [SM.bind_apply]
  match hw : (wired upSql downSql).upToVersion (some t) ms s with
  | (.ok (), s1) =>
    rw [hw] at h1 h2 ht
    dsimp only at h1 h2 ht ⊢
    rw [execAll_append_ok _ h1.symm]
    have hd : Spec.pendingDown t ms s1.applied = Spec.pendingDown t ms s.applied := by
      unfold Spec.pendingDown
      congr 1
      refine List.filter_congr fun k hk => ?_
      by_cases hr : Spec.rank t < Spec.rank k.1
      · simp only [hr, decide_true, Bool.true_and, decide_eq_decide]
        rw [h2]
        refine ⟨fun h => h.elim id ?_, .inl⟩
        rintro ⟨i, hi, _⟩
        exfalso
        have hm := List.mem_of_getElem? hi
        unfold Spec.pendingUp at hm
        have := (List.mem_filter.1 hm).2
        simp [Spec.upTo] at this
        omega
      · simp [hr]
    rw [← hd]
    exact (C68_down upSql downSql ms hp t s1 ht).1
  | (.err e, s1) =>
    rw [hw] at h1
    dsimp only at h1 ⊢
    rw [execAll_stop _ (by rw [← h1]; exact fun h => by cases h)]
    exact h1
  | (.panic, s1) =>
    rw [hw] at h1
    dsimp only at h1 ⊢
    rw [execAll_stop _ (by rw [← h1]; exact fun h => by cases h)]
    exact h1

theorem oneDownKeys_wired (upSql downSql : MigKey → Str) (s : MigWire) (ks : List MigKey) :
    (wired upSql downSql).oneDownKeys ks s =
      match (ks.filter fun k => decide (Applied s.applied k)).head? with
      | none => (.ok false, s)
      | some k => ((wired upSql downSql).downOne k >>= fun _ => (pure true : SM MigWire Error Bool)) s := by
  induction ks with
  | nil => rfl
  | cons j ks ih =>
    unfold MigEnv.oneDownKeys
    rw [SM.get_bind_apply]
    have : (wired upSql downSql).applied s = s.applied := rfl
    rw [this]
    by_cases hj : Applied s.applied j
    · rw [List.filter_cons_of_pos (by simp [hj])]
      match hg : getApplied s.applied j with
      | none => exact absurd hj (getApplied_none'.1 hg)
      | some i =>
        dsimp only [List.head?_cons]
        have : (wired upSql downSql).downOne j s = (wired upSql downSql).downAt j i s := by
          unfold MigEnv.downOne
          rw [SM.get_bind_apply]
          have : (wired upSql downSql).applied s = s.applied := rfl
          rw [this, hg]
        rw [SM.bind_apply, SM.bind_apply, this]
    · rw [List.filter_cons_of_neg (by simp [hj]), getApplied_none'.2 hj]
      exact ih

/-- Undoing one is executing the statement of the last applied migration and the removal of its
record; nothing is executed if there is none. -/
theorem C68_one_down (upSql downSql : MigKey → Str) (ms : List MigList) (s : MigWire) :
    let w := (wired upSql downSql).oneDown ms s
    match ((Spec.declared ms).filter fun k => decide (Applied s.applied k)).getLast? with
    | none => w = (.ok false, s)
    | some k => (w.1.map' fun _ => (), w.2.conn) = execAll [downSql k, deleteSql k] s.conn ∧ w.1 ≠ .ok false := by
  intro w
  have h : w = _ := oneDownKeys_wired upSql downSql s _
  rw [declared_reverse, List.filter_reverse, List.head?_reverse] at h
  match hl : ((Spec.declared ms).filter fun k => decide (Applied s.applied k)).getLast? with
  | none =>
    rw [hl] at h
    exact h
  | some k =>
    rw [hl] at h
    dsimp only at h ⊢
    have hk : Applied s.applied k := by
      have := (List.mem_filter.1 (List.mem_of_getLast? hl)).2
      simpa using this
    rw [SM.bind_apply, downOne_wired upSql downSql hk] at h
    rw [execAll_cons]
    match h1 : executeQuery (downSql k) s.conn with
    | (.ok x, c1) =>
      rw [h1] at h
      dsimp only at h ⊢
      match h2 : execAll [deleteSql k] c1 with
      | (.ok (), c2) => rw [h2] at h; rw [h]; exact ⟨rfl, fun h => by cases h⟩
      | (.err e, c2) => rw [h2] at h; rw [h]; exact ⟨rfl, fun h => by cases h⟩
      | (.panic, c2) => rw [h2] at h; rw [h]; exact ⟨rfl, fun h => by cases h⟩
    | (.err e, c1) => rw [h1] at h; rw [h]; exact ⟨rfl, fun h => by cases h⟩
    | (.panic, c1) => rw [h1] at h; rw [h]; exact ⟨rfl, fun h => by cases h⟩

/-! ### on the wire -/

theorem executeQuery_any (sql : Str) (c : Conn) (hp : c.pendingResult = false) (hw : c.wfaults = []) :
    ((∃ x, (executeQuery sql c).1 = .ok x) ∨ ∃ e, (executeQuery sql c).1 = .err e) ∧
    (executeQuery sql c).2.tx = c.tx ++ Spec.frames 0 (0x03 :: utf8 sql) ∧
    (executeQuery sql c).2.pendingResult = false ∧ (executeQuery sql c).2.wfaults = [] := by
  have hcalm : Calm (readResponse >>= okOrServerError) :=
    Calm.bind Calm.readResponse fun _ => Calm.okOrServerError _
  have he : executeQuery sql c = (readResponse >>= okOrServerError) { c with
      tx := c.tx ++ Spec.frames 0 (0x03 :: utf8 sql),
      seqId := UInt8.ofNat (Spec.frameCount (0x03 :: utf8 sql)) } := by
    unfold executeQuery
    rw [SM.bind_of_ok (executeCommand_clean .query (utf8 sql) c hp hw)]
    rfl
  obtain ⟨r1, r2⟩ := readOnly_response { c with
      tx := c.tx ++ Spec.frames 0 (0x03 :: utf8 sql),
      seqId := UInt8.ofNat (Spec.frameCount (0x03 :: utf8 sql)) }
  obtain ⟨c1, c2⟩ := hcalm { c with
      tx := c.tx ++ Spec.frames 0 (0x03 :: utf8 sql),
      seqId := UInt8.ofNat (Spec.frameCount (0x03 :: utf8 sql)) } hp
  rw [← he] at r1 r2 c1 c2
  refine ⟨?_, r1, c2, r2.trans hw⟩
  match h : (executeQuery sql c).1 with
  | .ok x => exact .inl ⟨x, rfl⟩
  | .err e => exact .inr ⟨e, rfl⟩
  | .panic => exact absurd h c1

/-- What executing a sequence of statements sends, whatever comes back: the statements one after
the other up to and including the one that fails, each as one command of its own; and it does not
panic. -/
theorem C68_sent (sqls : List Str) (c : Conn) (hp : c.pendingResult = false) (hw : c.wfaults = []) :
    ∃ n, n ≤ sqls.length ∧
      (execAll sqls c).2.tx = c.tx ++ Spec.commands ((sqls.take n).map fun s => 0x03 :: utf8 s) ∧
      ((execAll sqls c).1 = .ok () ∧ n = sqls.length ∨ (∃ e, (execAll sqls c).1 = .err e) ∧ 0 < n) ∧
      (execAll sqls c).2.pendingResult = false := by
  induction sqls generalizing c with
  | nil => exact ⟨0, le_rfl, by simp [execAll, Spec.commands], .inl ⟨rfl, rfl⟩, hp⟩
  | cons sql sqls ih =>
    obtain ⟨h1, h2, h3, h4⟩ := executeQuery_any sql c hp hw
    rw [execAll_cons]
    match hr : executeQuery sql c with
    | (.panic, c1) =>
      rw [hr] at h1
      rcases h1 with ⟨x, h⟩ | ⟨x, h⟩ <;> cases h
    | (.err e, c1) =>
      rw [hr] at h2 h3
      refine ⟨1, by simp, ?_, .inr ⟨⟨e, rfl⟩, by omega⟩, h3⟩
      dsimp only at h2 ⊢
      rw [h2]
      simp [Spec.commands]
    | (.ok x, c1) =>
      rw [hr] at h2 h3 h4
      dsimp only at h2 h3 h4 ⊢
      obtain ⟨n, i1, i2, i3, i4⟩ := ih c1 h3 h4
      refine ⟨n + 1, by simpa using i1, ?_, ?_, i4⟩
      · rw [i2, h2]
        simp [Spec.commands]
      · rcases i3 with ⟨h, h'⟩ | ⟨h, _⟩
        · exact .inl ⟨h, by simp [h']⟩
        · exact .inr ⟨h, by omega⟩

/-! ### starting -/

theorem loadLoop_ok (fp : FloatParse) (ms : List MigList) (n : Nat) (rs : RSet) (a b : Version → List Str)
    (c c' : Conn) :
    loadLoop fp ms n rs a c = (.ok b, c') ↔ ∃ rs' rows,
      RSet.collectLoop (textReader fp migrationOf) n rs c = (.ok (rs', rows), c') ∧
      loadApplied ms rows a = some b := by
  induction n generalizing rs a c with
  | zero => exact ⟨fun h => (by cases h), fun ⟨_, _, h, _⟩ => (by cases h)⟩
  | succ n ih =>
    rw [loadLoop, RSet.collectLoop, SM.bind_apply, SM.bind_apply]
    match rs.next (textReader fp migrationOf) c with
    | (.err e, c1) => exact ⟨fun h => (by cases h), fun ⟨_, _, h, _⟩ => (by cases h)⟩
    | (.panic, c1) => exact ⟨fun h => (by cases h), fun ⟨_, _, h, _⟩ => (by cases h)⟩
    | (.ok (rs1, none), c1) =>
      constructor
      · intro h
        cases h
        exact ⟨rs1, [], rfl, rfl⟩
      · rintro ⟨_, _, h, h'⟩
        cases h
        cases h'
        rfl
    | (.ok (rs1, some k), c1) =>
      dsimp only
      by_cases hk : isKnown ms k = true
      · rw [if_pos hk, ih]
        constructor
        · rintro ⟨rs', rows, h1, h2⟩
          refine ⟨rs', k :: rows, ?_, ?_⟩
          · rw [SM.bind_of_ok h1]
            rfl
          · rw [loadApplied, if_pos hk]
            exact h2
        · rintro ⟨rs', rows, h1, h2⟩
          obtain ⟨⟨rs'', l⟩, c2, h3, h4⟩ := SM.bind_eq_ok.1 h1
          cases h4
          rw [loadApplied, if_pos hk] at h2
          exact ⟨rs'', l, h3, h2⟩
      · rw [if_neg hk]
        constructor
        · intro h
          cases h
        · rintro ⟨rs', rows, h1, h2⟩
          obtain ⟨⟨rs'', l⟩, c2, h3, h4⟩ := SM.bind_eq_ok.1 h1
          cases h4
          rw [loadApplied, if_neg hk] at h2
          cases h2

theorem loadLoop_panic (fp : FloatParse) (ms : List MigList) (n : Nat) (rs rs' : RSet) (a : Version → List Str)
    (rows : List MigKey) (c c' : Conn)
    (h : RSet.collectLoop (textReader fp migrationOf) n rs c = (.ok (rs', rows), c'))
    (hn : loadApplied ms rows a = none) : (loadLoop fp ms n rs a c).1 = .panic := by
  induction n generalizing rs a c rows with
  | zero => cases h
  | succ n ih =>
    rw [loadLoop, SM.bind_apply]
    rw [RSet.collectLoop, SM.bind_apply] at h
    match hx : rs.next (textReader fp migrationOf) c with
    | (.err e, c1) => rw [hx] at h; cases h
    | (.panic, c1) => rfl
    | (.ok (rs1, none), c1) => rw [hx] at h; cases h; cases hn
    | (.ok (rs1, some k), c1) =>
      rw [hx] at h
      dsimp only at h ⊢
      obtain ⟨⟨rs'', l⟩, c2, h3, h4⟩ := SM.bind_eq_ok.1 h
      cases h4
      rw [loadApplied] at hn
      split at hn
      · rename_i hk
        rw [if_pos hk]
        exact ih _ _ _ _ h3 hn
      · rename_i hk
        rw [if_neg hk]
        rfl

theorem readOnly_loadLoop (fp : FloatParse) (ms : List MigList) (n : Nat) (rs : RSet)
    (a : Version → List Str) : ReadOnly (loadLoop fp ms n rs a) := by
  induction n generalizing rs a with
  | zero => exact ReadOnly.crash
  | succ n ih =>
    unfold loadLoop
    refine ReadOnly.bind (readOnly_next _ _) fun x => ?_
    obtain ⟨rs', k?⟩ := x
    cases k? with
    | none => exact ReadOnly.pure _
    | some k => exact ReadOnly.ite (ih _ _) ReadOnly.crash

theorem isKnown_iff {ms : List MigList} (hp : Proper ms) (k : MigKey) :
    isKnown ms k = true ↔ k ∈ Spec.declared ms := by
  have h := (C47_new ms hp [k]).2
  unfold migratorNew at h
  rw [loadApplied] at h
  by_cases hk : isKnown ms k = true
  · rw [if_pos hk] at h
    simp only [hk, true_iff]
    apply Classical.byContradiction
    intro hd
    exact absurd (h.2 ⟨k, List.mem_singleton.2 rfl, hd⟩) (fun h => by cases h)
  · rw [if_neg hk] at h
    refine ⟨fun h' => absurd h' hk, fun hd => ?_⟩
    exfalso
    obtain ⟨j, hj, hj'⟩ := h.1 rfl
    rw [List.mem_singleton] at hj
    exact hj' (hj ▸ hd)

/-- an ended result set belongs to a connection without a pending result. -/
theorem next_rest {R : Type} (rd : RowReader R) (rs rs' : RSet) (r? : Option R) (c c' : Conn)
    (hr : rs.okPacket.isSome = true → c.pendingResult = false)
    (h : rs.next rd c = (.ok (rs', r?), c')) :
    (r? = none → c'.pendingResult = false) ∧ (r? ≠ none → rs' = rs ∧ rs.okPacket.isSome = false) := by
  unfold RSet.next at h
  split at h
  · rename_i ho
    cases h
    exact ⟨fun _ => hr ho, fun h => absurd rfl h⟩
  · rename_i ho
    obtain ⟨p, c1, h1, h2⟩ := SM.bind_eq_ok.1 h
    rw [SM.get_bind_apply] at h2
    obtain ⟨last, c2, h3, h4⟩ := SM.bind_eq_ok.1 h2
    cases last with
    | true =>
      rw [if_pos rfl] at h4
      obtain ⟨ok, c3, h5, h6⟩ := SM.bind_eq_ok.1 h4
      cases h6
      exact ⟨fun _ => rfl, fun h => absurd rfl h⟩
    | false =>
      rw [if_neg (by simp)] at h4
      obtain ⟨row, c3, h5, h6⟩ := SM.bind_eq_ok.1 h4
      obtain ⟨r, c4, h7, h8⟩ := SM.bind_eq_ok.1 h6
      cases h8
      exact ⟨fun h => (by cases h), fun _ => ⟨rfl, by simpa using ho⟩⟩

theorem collectLoop_rest {R : Type} (rd : RowReader R) (n : Nat) (rs rs' : RSet) (l : List R) (c c' : Conn)
    (hr : rs.okPacket.isSome = true → c.pendingResult = false)
    (h : RSet.collectLoop rd n rs c = (.ok (rs', l), c')) : c'.pendingResult = false := by
  induction n generalizing rs c l with
  | zero => cases h
  | succ n ih =>
    rw [RSet.collectLoop] at h
    obtain ⟨⟨rs1, r?⟩, c1, h1, h2⟩ := SM.bind_eq_ok.1 h
    obtain ⟨h3, h4⟩ := next_rest rd rs rs1 r? c c1 hr h1
    cases r? with
    | none =>
      cases h2
      exact h3 rfl
    | some r =>
      obtain ⟨⟨rs2, l2⟩, c2, h5, h6⟩ := SM.bind_eq_ok.1 h2
      cases h6
      obtain ⟨rfl, ho⟩ := h4 (by simp)
      exact ih _ _ _ (by rw [ho]; intro h; cases h) h5

theorem query_any (sql : Str) (c : Conn) (hp : c.pendingResult = false) (hw : c.wfaults = []) :
    (query sql c).2.tx = c.tx ++ Spec.frames 0 (0x03 :: utf8 sql) ∧ (query sql c).2.wfaults = [] ∧
    ∀ rs, (query sql c).1 = .ok rs → rs.okPacket.isSome = true → (query sql c).2.pendingResult = false := by
  have he : query sql c = RSet.read { c with
      tx := c.tx ++ Spec.frames 0 (0x03 :: utf8 sql),
      seqId := UInt8.ofNat (Spec.frameCount (0x03 :: utf8 sql)) } := by
    unfold query
    rw [SM.bind_of_ok (executeCommand_clean .query (utf8 sql) c hp hw)]
    rfl
  obtain ⟨h1, h2⟩ := readOnly_read { c with
      tx := c.tx ++ Spec.frames 0 (0x03 :: utf8 sql),
      seqId := UInt8.ofNat (Spec.frameCount (0x03 :: utf8 sql)) }
  rw [← he] at h1 h2
  refine ⟨h1, h2.trans hw, fun rs hrs ho => ?_⟩
  have hq : query sql c = (.ok rs, (query sql c).2) := Prod.ext hrs rfl
  rw [he] at hq ⊢
  generalize hc0 : ({ c with
      tx := c.tx ++ Spec.frames 0 (0x03 :: utf8 sql),
      seqId := UInt8.ofNat (Spec.frameCount (0x03 :: utf8 sql)) } : Conn) = c0 at hq ⊢
  have hp0 : c0.pendingResult = false := by rw [← hc0]; exact hp
  generalize (RSet.read c0).2 = c' at hq ⊢
  unfold RSet.read at hq
  obtain ⟨p, c1, q1, q2⟩ := SM.bind_eq_ok.1 hq
  have hp1 : c1.pendingResult = false := by
    have := readPacket_pending c0
    rw [q1] at this
    exact this.trans hp0
  rw [SM.get_bind_apply] at q2
  match p with
  | [] =>
    dsimp only at q2
    rw [SM.modify_bind_apply] at q2
    obtain ⟨_, _, _, q3⟩ := SM.bind_eq_ok.1 q2
    obtain ⟨_, _, _, q4⟩ := SM.bind_eq_ok.1 q3
    cases q4
    cases ho
  | b :: p =>
    dsimp only at q2
    split at q2
    · have hcalm : Calm (do
          let r ← decodeResponse (b :: p)
          let ok ← okOrServerError r
          pure { columns := [], okPacket := some ok } : M RSet) :=
        Calm.bind (Calm.decodeResponse _) fun _ => Calm.bind (Calm.okOrServerError _) fun _ => Calm.pure _
      have := (hcalm c1 hp1).2
      rw [q2] at this
      exact this
    · split at q2
      · cases q2
      · split at q2
        · obtain ⟨_, _, _, q3⟩ := SM.bind_eq_ok.1 q2
          cases q3
        · rw [SM.modify_bind_apply] at q2
          obtain ⟨_, _, _, q3⟩ := SM.bind_eq_ok.1 q2
          obtain ⟨_, _, _, q4⟩ := SM.bind_eq_ok.1 q3
          cases q4
          cases ho

/-- What starting a migrator sends, whatever comes back: it asks for the table, creates it or not,
and reads it; when it succeeds it has asked and read, and takes for applied only known migrations,
and the connection is ready for the next statement. -/
theorem C68_new (debug : Bool) (fp : FloatParse) (ms : List MigList) (hm : Proper ms) (c : Conn)
    (hp : c.pendingResult = false) (hw : c.wfaults = []) :
    ∃ l ∈ [[], [existsSql], [existsSql, createSql], [existsSql, selectSql],
        [existsSql, createSql, selectSql]],
      (migratorOpen debug fp ms c).2.tx = c.tx ++ Spec.commands (l.map fun s => 0x03 :: utf8 s) ∧
      ∀ a, (migratorOpen debug fp ms c).1 = .ok a →
        selectSql ∈ l ∧ (∀ k, Applied a k → k ∈ Spec.declared ms) ∧
        (migratorOpen debug fp ms c).2.pendingResult = false ∧ (migratorOpen debug fp ms c).2.wfaults = [] := by
  unfold migratorOpen
  split
  · exact ⟨[], by simp, by simp [SM.crash, Spec.commands], fun a h => by cases h⟩
  rw [SM.bind_apply]
  unfold ensureTable
  obtain ⟨a1, a2, a3⟩ := query_any existsSql c hp hw
  rw [SM.bind_apply]
  match h1 : query existsSql c with
  | (.err e, c1) =>
    rw [h1] at a1
    exact ⟨[existsSql], by simp, by simpa [Spec.commands] using a1, fun a h => by cases h⟩
  | (.panic, c1) =>
    rw [h1] at a1
    exact ⟨[existsSql], by simp, by simpa [Spec.commands] using a1, fun a h => by cases h⟩
  | (.ok rs, c1) =>
    rw [h1] at a1 a2 a3
    dsimp only at a1 a2 a3 ⊢
    rw [SM.bind_apply]
    obtain ⟨b1, b2⟩ := readOnly_collectLoop (textReader fp mkPlain) (c1.rx.length + 2) rs c1
    have hcol : rs.collect (textReader fp mkPlain) c1 =
      RSet.collectLoop (textReader fp mkPlain) (c1.rx.length + 2) rs c1 := rfl
    match h2 : rs.collect (textReader fp mkPlain) c1 with
    | (.err e, c2) =>
      rw [← hcol, h2] at b1
      refine ⟨[existsSql], by simp, ?_, fun a h => by cases h⟩
      dsimp only at b1 ⊢
      rw [b1, a1]
      simp [Spec.commands]
    | (.panic, c2) =>
      rw [← hcol, h2] at b1
      refine ⟨[existsSql], by simp, ?_, fun a h => by cases h⟩
      dsimp only at b1 ⊢
      rw [b1, a1]
      simp [Spec.commands]
    | (.ok (rs2, rows), c2) =>
      rw [← hcol, h2] at b1 b2
      have hp2 : c2.pendingResult = false :=
        collectLoop_rest _ _ _ _ _ _ _ (a3 rs rfl) (hcol.symm.trans h2)
      dsimp only at b1 b2 ⊢
      -- reading the table from a connection at rest
      have hload : ∀ (l : List Str) (c3 : Conn), c3.pendingResult = false → c3.wfaults = [] →
          c3.tx = c.tx ++ Spec.commands (l.map fun s => 0x03 :: utf8 s) →
          (loadTable fp ms c3).2.tx = c.tx ++ Spec.commands ((l ++ [selectSql]).map fun s => 0x03 :: utf8 s) ∧
          ∀ a, (loadTable fp ms c3).1 = .ok a → (∀ k, Applied a k → k ∈ Spec.declared ms) ∧
            (loadTable fp ms c3).2.pendingResult = false ∧ (loadTable fp ms c3).2.wfaults = [] := by
        intro l c3 h3 h4 h5
        unfold loadTable
        obtain ⟨d1, d2, d3⟩ := query_any selectSql c3 h3 h4
        have htx : c3.tx ++ Spec.frames 0 (0x03 :: utf8 selectSql) =
            c.tx ++ Spec.commands ((l ++ [selectSql]).map fun s => 0x03 :: utf8 s) := by
          rw [h5]
          simp [Spec.commands]
        rw [SM.bind_apply]
        match h6 : query selectSql c3 with
        | (.err e, c4) =>
          rw [h6] at d1
          exact ⟨d1.trans htx, fun a h => by cases h⟩
        | (.panic, c4) =>
          rw [h6] at d1
          exact ⟨d1.trans htx, fun a h => by cases h⟩
        | (.ok rs4, c4) =>
          rw [h6] at d1 d2 d3
          dsimp only at d1 d2 d3 ⊢
          rw [SM.get_bind_apply]
          obtain ⟨e1, e2⟩ := readOnly_loadLoop fp ms (c4.rx.length + 2) rs4 (fun _ => []) c4
          refine ⟨(e1.trans d1).trans htx, fun a ha => ?_⟩
          have hl := (loadLoop_ok fp ms _ rs4 _ a c4 _).1 (Prod.ext ha rfl)
          obtain ⟨rs5, keys, k1, k2⟩ := hl
          refine ⟨fun k hk => ?_, collectLoop_rest _ _ _ _ _ _ _ (d3 rs4 rfl) k1, e2.trans d2⟩
          obtain ⟨m1, m2⟩ := C47_new ms hm keys
          have hk' := (m1 a k2 k).1 hk
          apply Classical.byContradiction
          intro hno
          have := m2.2 ⟨k, hk', hno⟩
          rw [migratorNew, k2] at this
          cases this
      by_cases hr : rows.isEmpty = true
      · rw [if_pos hr, SM.bind_apply]
        obtain ⟨f1, f2, f3, f4⟩ := executeQuery_any createSql c2 hp2 (b2.trans a2)
        have htx : c2.tx ++ Spec.frames 0 (0x03 :: utf8 createSql) =
            c.tx ++ Spec.commands ([existsSql, createSql].map fun s => 0x03 :: utf8 s) := by
          rw [b1, a1]
          simp [Spec.commands]
        match h3 : executeQuery createSql c2 with
        | (.err e, c3) =>
          rw [h3] at f2
          exact ⟨[existsSql, createSql], by simp, f2.trans htx, fun a h => by cases h⟩
        | (.panic, c3) =>
          rw [h3] at f2
          exact ⟨[existsSql, createSql], by simp, f2.trans htx, fun a h => by cases h⟩
        | (.ok x, c3) =>
          rw [h3] at f2 f3 f4
          obtain ⟨g1, g2⟩ := hload [existsSql, createSql] c3 f3 f4 (f2.trans htx)
          exact ⟨[existsSql, createSql, selectSql], by simp, g1, fun a ha => ⟨by simp, g2 a ha⟩⟩
      · rw [if_neg hr]
        obtain ⟨g1, g2⟩ := hload [existsSql] c2 hp2 (b2.trans a2) (by rw [b1, a1]; simp [Spec.commands])
        exact ⟨[existsSql, selectSql], by simp, g1, fun a ha => ⟨by simp, g2 a ha⟩⟩

/-! ### a case: three migrations, the first applied before, the record of the third refused -/

namespace C68ex

def ms : List MigList := [⟨⟨1, 0, 0⟩, [['a'], ['b']]⟩, ⟨⟨1, 2, 0⟩, [['c']]⟩]
def upOf (k : MigKey) : Str := "create table ".toList ++ k.2
def downOf (k : MigKey) : Str := "drop table ".toList ++ k.2
def okBytes : Bytes := [0, 0, 0, 2, 0, 0, 0]
def errBytes : Bytes := [0xFF, 0x26, 0x04, 0x23, 0x32, 0x33, 0x30, 0x30, 0x30, 0x64, 0x75, 0x70]
def answers (ps : List Bytes) : Bytes := ps.flatMap (Spec.frames 1)
def start (ps : List Bytes) : MigWire :=
  { conn := exConn (answers ps)
    applied := fun v => if v = ⟨1, 0, 0⟩ then [['a']] else [] }
def run := (wired upOf downOf).up ms (start [okBytes, okBytes, okBytes, errBytes])

/-- the statements sent. -/
example : run.2.conn.tx = Spec.commands (["create table b",
      "insert into `migrations` (`version_0`, `version_1`, `version_2`, `name`) values (1, 0, 0, \"b\")",
      "create table c",
      "insert into `migrations` (`version_0`, `version_1`, `version_2`, `name`) values (1, 2, 0, \"c\")"].map
    fun s => 0x03 :: utf8 s.toList) := by decide +kernel

/-- the error is returned; the migrator takes all three for applied. -/
example : (run.1 = .ok () → False) ∧
    (Spec.declared ms).map (fun k => decide (Applied run.2.applied k)) = [true, true, true] := by
  refine ⟨fun h => ?_, by decide +kernel⟩
  have : run.1 ≠ .ok () := by decide +kernel
  exact this h

/-- going down again undoes the last first. -/
example : ((wired upOf downOf).downToVersion ⟨1, 0, 0⟩ ms
      { run.2 with conn := { run.2.conn with rx := rxOf (answers [okBytes, okBytes]) } }).2.conn.tx =
    run.2.conn.tx ++ Spec.commands (["drop table c",
      "delete from `migrations` where `version_0` = 1 and `version_1` = 2 and `version_2` = 0 and `name` = \"c\""].map
    fun s => 0x03 :: utf8 s.toList) := by decide +kernel

end C68ex

end Verif

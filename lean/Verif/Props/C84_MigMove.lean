import Verif.Spec.MigMove
import Verif.Props.C69_MigServer

/-!
# C84 — moving a database to a version, and one step down

`to_version` and `one_down` against the server with a table of migrations (Spec/MigServer).
-/

namespace Verif

open Spec (MigServer MigStore SqlError Applied)
open Spec.MigServer (talk applyAll revertAll tookEffect undone moveTo)

variable {W : Type} (S : MigServer W)

theorem tidy_down (upSql downSql : MigKey → Str) (ms : List MigList) (hp : Proper ms)
    (t : Version) (s : MigWire) (h : Tidy s.applied) :
    Tidy ((wired upSql downSql).downToVersion t ms s).2.applied := by
  have hn : ((Spec.declared ms).reverse.filter (above t)).Nodup := hp.nodup_reverse.filter _
  have h' := downKeys_wired upSql downSql _ hn s h
  rw [← MigEnv.downToVersion_eq] at h'
  exact h'.2.2.2

/-! ### what it makes of the table -/

/-- the records after all that is missing was added. -/
theorem applied_rows (upSql : MigKey → Str) (ms : List MigList) (hl : ∀ k ∈ Spec.declared ms, k.2.length ≤ 255)
    (t : Option Version) (w : W) (rows : List MigKey)
    (h : (S.applyAll upSql w rows (missing t ms rows)).2.2 = none) :
    (S.applyAll upSql w rows (missing t ms rows)).2.1 = rows ++ missing t ms rows ∧
    S.tookEffect upSql w rows (missing t ms rows) = missing t ms rows := by
  obtain ⟨done, rest, h1, h2, h3, h4⟩ := C69_rows_partial S upSql w rows (missing t ms rows)
    fun k hk => hl k (List.mem_filter.1 hk).1
  obtain rfl := h3.1 h
  rw [List.append_nil] at h1
  rw [← h1] at h2 h4
  refine ⟨h2, ?_⟩
  rcases h4 with h4 | ⟨_, _, h, _⟩
  · exact h4
  · cases h

theorem present_added (t : Version) (ms : List MigList) (rows rows' : List MigKey) :
    present t ms (rows ++ missing (some t) ms rows') = present t ms rows := by
  unfold present
  congr 1
  refine List.filter_congr fun k _ => ?_
  by_cases hr : Spec.rank t < Spec.rank k.1
  · simp only [hr, decide_true, Bool.true_and, decide_eq_decide, List.mem_append]
    refine ⟨fun h => h.elim id fun h => ?_, .inl⟩
    exfalso
    have := (List.mem_filter.1 h).2
    simp [Spec.upTo] at this
    omega
  · simp [hr]

/-- When nothing is refused, the records are those from before without the declared migrations above the
target, and those that were missing, in the order they are declared. -/
theorem C84_rows_partial (hc : Collates S) (upSql downSql : MigKey → Str) (ms : List MigList)
    (hl : ∀ k ∈ Spec.declared ms, k.2.length ≤ 255) (t : Version) (w : W) (rows : List MigKey) (hs : S.Sound rows)
    (h : (S.moveTo upSql downSql w rows (missing (some t) ms rows) (present t ms rows)).2.2 = none) :
    (S.moveTo upSql downSql w rows (missing (some t) ms rows) (present t ms rows)).2.1 =
      rows.filter (fun k => !(decide (k ∈ Spec.declared ms) && decide (Spec.rank t < Spec.rank k.1))) ++
        missing (some t) ms rows := by
  unfold moveTo at h ⊢
  match hy : S.applyAll upSql w rows (missing (some t) ms rows) with
  | (w', rows', some e) => rw [hy] at h; cases h
  | (w', rows', none) =>
    rw [hy] at h
    dsimp only at h ⊢
    have hr := (applied_rows S upSql ms hl (some t) w rows (by rw [hy])).1
    rw [hy] at hr
    dsimp only at hr
    have hs' := (C69_sound S hc upSql downSql w rows (missing (some t) ms rows) hs).1
    rw [hy] at hs'
    obtain ⟨done, rest, h1, _, h3, h4⟩ := C69_rows_down S hc downSql w' rows' (present t ms rows) hs' fun k hk => by
      have := (List.mem_filter.1 (List.mem_reverse.1 hk)).2
      rw [Bool.and_eq_true, decide_eq_true_iff, decide_eq_true_iff] at this
      rw [hr]
      exact List.mem_append_left _ this.2
    obtain rfl := h4.1 h
    rw [List.append_nil] at h1
    rw [h3, ← h1, hr, List.filter_append]
    congr 1
    · refine List.filter_congr fun k hk => ?_
      have : k ∈ present t ms rows ↔ k ∈ Spec.declared ms ∧ Spec.rank t < Spec.rank k.1 := by
        unfold present
        rw [List.mem_reverse, List.mem_filter, Bool.and_eq_true, decide_eq_true_iff, decide_eq_true_iff]
        exact ⟨fun h => ⟨h.1, h.2.1⟩, fun h => ⟨h.1, h.2, hk⟩⟩
      rw [Bool.eq_iff_iff, decide_eq_true_iff, this]
      simp only [Bool.not_eq_true', Bool.and_eq_false_iff, decide_eq_false_iff_not]
      exact Classical.not_and_iff_not_or_not
    · rw [List.filter_eq_self]
      intro k hk
      rw [decide_eq_true_iff]
      intro hk'
      have h1 := (List.mem_filter.1 hk).2
      have h2 := (List.mem_filter.1 (List.mem_reverse.1 hk')).2
      simp [Spec.upTo] at h1 h2
      omega

/-- In particular, if all records are of declared migrations, the records are afterwards exactly the
declared migrations up to the target, each once; and there is nothing left to do.
Missing: names of more than 255 characters (C69). -/
theorem C84_reached_partial (hc : Collates S) (upSql downSql : MigKey → Str) (ms : List MigList) (hm : Proper ms)
    (hl : ∀ k ∈ Spec.declared ms, k.2.length ≤ 255) (t : Version) (w : W) (rows : List MigKey) (hs : S.Sound rows)
    (hd : ∀ k ∈ rows, k ∈ Spec.declared ms) :
    let y := S.moveTo upSql downSql w rows (missing (some t) ms rows) (present t ms rows)
    y.2.2 = none →
      y.2.1.Perm ((Spec.declared ms).filter fun k => decide (Spec.rank k.1 ≤ Spec.rank t)) ∧
      missing (some t) ms y.2.1 = [] ∧ present t ms y.2.1 = [] := by
  intro y h
  have hr := C84_rows_partial S hc upSql downSql ms hl t w rows hs h
  have hmem : ∀ k, k ∈ y.2.1 ↔ k ∈ Spec.declared ms ∧ Spec.rank k.1 ≤ Spec.rank t := by
    intro k
    show k ∈ (S.moveTo upSql downSql w rows (missing (some t) ms rows) (present t ms rows)).2.1 ↔ _
    rw [hr, List.mem_append, List.mem_filter]
    unfold missing
    rw [List.mem_filter]
    simp only [Spec.upTo, Bool.and_eq_true, decide_eq_true_iff, Bool.not_eq_true', Bool.and_eq_false_iff,
      decide_eq_false_iff_not]
    constructor
    · rintro (⟨h1, h2⟩ | ⟨h1, h2, _⟩)
      · refine ⟨hd k h1, ?_⟩
        rcases h2 with h2 | h2
        · exact absurd (hd k h1) h2
        · omega
      · exact ⟨h1, h2⟩
    · rintro ⟨h1, h2⟩
      by_cases hk : k ∈ rows
      · exact .inl ⟨hk, .inr (by omega)⟩
      · exact .inr ⟨h1, h2, hk⟩
  have hnd : y.2.1.Nodup := by
    show (S.moveTo upSql downSql w rows (missing (some t) ms rows) (present t ms rows)).2.1.Nodup
    rw [hr, List.nodup_append]
    refine ⟨((C69_sound S hc upSql downSql w rows [] hs).2.2).filter _, hm.nodup.filter _, fun k hk j hj hkj => ?_⟩
    subst hkj
    have := (List.mem_filter.1 hj).2
    simp only [Bool.and_eq_true, Bool.not_eq_true', decide_eq_false_iff_not] at this
    exact this.2 (List.mem_filter.1 hk).1
  refine ⟨?_, ?_, ?_⟩
  · rw [List.perm_ext_iff_of_nodup hnd (hm.nodup.filter _)]
    intro k
    rw [hmem, List.mem_filter, decide_eq_true_iff]
  · unfold missing
    rw [List.filter_eq_nil_iff]
    intro k hk hk'
    simp only [Spec.upTo, Bool.and_eq_true, decide_eq_true_iff, Bool.not_eq_true', decide_eq_false_iff_not] at hk'
    exact hk'.2 ((hmem k).2 ⟨hk, hk'.1⟩)
  · unfold present
    rw [List.reverse_eq_nil_iff, List.filter_eq_nil_iff]
    intro k hk hk'
    simp only [Bool.and_eq_true, decide_eq_true_iff] at hk'
    have := ((hmem k).1 hk'.2).2
    omega

/-! ### the conversation -/

/-- Moving to a version: what is missing up to it takes effect and is recorded, in order; then what is
recorded above it is reverted, the last first, and its record removed; up to the first thing that is
refused, which is the error returned.  When it returned no error, the migrator takes for applied what is
recorded.
Missing: as for `C69_up_partial`; names of more than 255 characters. -/
theorem C84_to_version_partial (hS : FairMig S) (hc : Collates S) (upSql downSql : MigKey → Str)
    (ms : List MigList) (hm : Proper ms)
    (hu : ∀ k ∈ Spec.declared ms, Foreign (upSql k)) (hf : ∀ k ∈ Spec.declared ms, Foreign (downSql k))
    (hn : ∀ k ∈ Spec.declared ms, Plain k) (hl : ∀ k ∈ Spec.declared ms, k.2.length ≤ 255)
    (t : Version) (w : W) (rows : List MigKey) (hs : S.Sound rows) :
    let ups := missing (some t) ms rows
    let downs := present t ms rows
    let y := S.moveTo upSql downSql w rows ups downs
    ∃ cmds sent, S.talk ⟨some rows, w⟩ cmds = some (⟨some y.2.1, y.1⟩, sent, Spec.commands cmds) ∧
      cmds <+: (Spec.upStatements upSql ups ++ Spec.downStatements downSql downs).map cmdOf ∧
      (y.2.2 = none → cmds = (Spec.upStatements upSql ups ++ Spec.downStatements downSql downs).map cmdOf) ∧
      ∀ (a : Version → List Str), (∀ k, Applied a k ↔ k ∈ rows) → (∀ v, (a v).Nodup) →
      ∀ (c : Conn) (r : List Rx), MigRest S c (rxOf sent ++ r) →
        ∃ q a', (wired upSql downSql).toVersion t ms ⟨c, a⟩ = (migOutcome S y.2.2, ⟨{ c with
            rx := r
            tx := c.tx ++ Spec.commands cmds
            seqId := q }, a'⟩) ∧
          (y.2.2 = none → ∀ k, Applied a' k ↔ k ∈ y.2.1) ∧ ∀ v, (a' v).Nodup := by
  intro ups downs y
  have hupsub : ∀ k ∈ ups, k ∈ Spec.declared ms := fun k hk => (List.mem_filter.1 hk).1
  have hdownsub : ∀ k ∈ downs, k ∈ Spec.declared ms := fun k hk => (List.mem_filter.1 (List.mem_reverse.1 hk)).1
  obtain ⟨cmds1, sent1, h1, h2, h3, h4⟩ := pairs_talk S hS upSql insertSql ups
    (fun k hk => isExec_foreign (hu k (hupsub k hk))) (fun k hk => isExec_insert (hn k (hupsub k hk))) ⟨some rows, w⟩
  obtain ⟨e1, e2, e3⟩ := executeAll_up S upSql ups (fun k hk => hu k (hupsub k hk))
    (fun k hk => hn k (hupsub k hk)) w rows
  unfold Spec.upStatements at e1 e2
  rw [e1] at h1
  rw [e2] at h3 h4
  have hpend : ∀ a : Version → List Str, (∀ k, Applied a k ↔ k ∈ rows) → Spec.pendingUp (some t) ms a = ups := by
    intro a ha
    show _ = missing (some t) ms rows
    unfold Spec.pendingUp missing
    refine List.filter_congr fun k _ => ?_
    simp only [ha]
  -- the way up, for any view that agrees with the records
  have hup : ∀ a : Version → List Str, (∀ k, Applied a k ↔ k ∈ rows) → (∀ v, (a v).Nodup) →
      ∀ (c : Conn) (r : List Rx), MigRest S c (rxOf sent1 ++ r) →
      ∃ q a1, (wired upSql downSql).upToVersion (some t) ms ⟨c, a⟩ =
        (migOutcome S (S.applyAll upSql w rows ups).2.2, ⟨{ c with
            rx := r
            tx := c.tx ++ Spec.commands cmds1
            seqId := q }, a1⟩) ∧
        (∀ k, Applied a1 k ↔ k ∈ rows ∨ k ∈ S.tookEffect upSql w rows ups) ∧ ∀ v, (a1 v).Nodup := by
    intro a ha hd c r hr
    obtain ⟨⟨q, h5⟩, h6⟩ := h4 c r hr
    obtain ⟨k1, k2⟩ := C68_up upSql downSql ms hm (some t) ⟨c, a⟩
    have k3 := tidy_up upSql downSql ms hm (some t) ⟨c, a⟩ hd
    dsimp only at k1 k2
    rw [hpend a ha] at k1 k2
    unfold Spec.upStatements at k1 k2
    rw [h5] at k1
    generalize (wired upSql downSql).upToVersion (some t) ms ⟨c, a⟩ = z at k1 k2 k3
    obtain ⟨z1, z2, z3⟩ := z
    cases k1
    refine ⟨q, z3, rfl, fun k => ?_, k3⟩
    rw [k2, ha, ← e3, ← h6]
    rfl
  match hy : S.applyAll upSql w rows ups with
  | (w', rows', some e) =>
    have hyy : y = (w', rows', some e) := by
      show moveTo S upSql downSql w rows ups downs = _
      unfold moveTo
      rw [hy]
    rw [hyy]
    rw [hy] at h1 hup
    refine ⟨cmds1, sent1, h1, ?_, fun h => (by cases h), fun a ha hd c r hr => ?_⟩
    · rw [List.map_append]
      exact h2.trans (List.prefix_append _ _)
    · obtain ⟨q, a1, g1, _, g3⟩ := hup a ha hd c r hr
      refine ⟨q, a1, ?_, fun h => (by cases h), g3⟩
      unfold MigEnv.toVersion
      rw [SM.bind_of_err g1]
      rfl
  | (w', rows', none) =>
    have hyy : y = S.revertAll downSql w' rows' downs := by
      show moveTo S upSql downSql w rows ups downs = _
      unfold moveTo
      rw [hy]
    rw [hyy]
    rw [hy] at h1 hup h3
    dsimp only at h1 hup
    obtain ⟨r1, r2⟩ := applied_rows S upSql ms hl (some t) w rows (by
      show (S.applyAll upSql w rows ups).2.2 = none
      rw [hy])
    rw [show missing (some t) ms rows = ups from rfl, hy] at r1
    dsimp only at r1
    have hdowns : present t ms rows' = downs := by rw [r1]; exact present_added t ms rows rows
    obtain ⟨cmds2, sent2, g1, g2, g3, g4⟩ := pairs_talk S hS downSql deleteSql downs
      (fun k hk => isExec_foreign (hf k (hdownsub k hk))) (fun k hk => isExec_delete (hn k (hdownsub k hk)))
      ⟨some rows', w'⟩
    obtain ⟨e4, e5, e6⟩ := executeAll_down S downSql downs (fun k hk => hf k (hdownsub k hk))
      (fun k hk => hn k (hdownsub k hk)) w' rows'
    unfold Spec.downStatements at e4 e5
    rw [e4] at g1
    rw [e5] at g3 g4
    refine ⟨cmds1 ++ cmds2, sent1 ++ sent2, ?_, ?_, fun h => ?_, fun a ha hd c r hr => ?_⟩
    · rw [mtalk_append, h1, Option.bind_some, g1, Option.map_some, commands_append']
    · rw [List.map_append, h3 rfl]
      exact (List.prefix_append_right_inj _).2 g2
    · rw [List.map_append, h3 rfl, g3 h]
      rfl
    · rw [rxOf_append, List.append_assoc] at hr
      obtain ⟨q1, a1, u1, u2, u3⟩ := hup a ha hd c (rxOf sent2 ++ r) hr
      have ha1 : ∀ k, Applied a1 k ↔ k ∈ rows' := by
        intro k
        rw [u2, show S.tookEffect upSql w rows ups = ups from r2, r1, List.mem_append]
      obtain ⟨⟨q, g5⟩, g6⟩ := g4 _ r (MigRest.next hr (rxOf sent2 ++ r) (c.tx ++ Spec.commands cmds1) q1)
      have k1 := (C68_down upSql downSql ms hm t ⟨{ c with
            rx := rxOf sent2 ++ r
            tx := c.tx ++ Spec.commands cmds1
            seqId := q1 }, a1⟩ u3).1
      have k2 := (C68_down upSql downSql ms hm t ⟨{ c with
            rx := rxOf sent2 ++ r
            tx := c.tx ++ Spec.commands cmds1
            seqId := q1 }, a1⟩ u3).2
      have k3 := tidy_down upSql downSql ms hm t ⟨{ c with
            rx := rxOf sent2 ++ r
            tx := c.tx ++ Spec.commands cmds1
            seqId := q1 }, a1⟩ u3
      dsimp only at k1 k2
      have hpd : Spec.pendingDown t ms a1 = downs := by
        rw [← hdowns]
        unfold Spec.pendingDown present
        congr 1
        refine List.filter_congr fun k _ => ?_
        simp only [ha1]
      rw [hpd] at k1 k2
      unfold Spec.downStatements at k1 k2
      rw [g5] at k1
      unfold MigEnv.toVersion
      rw [SM.bind_of_ok u1]
      generalize (wired upSql downSql).downToVersion t ms ⟨{ c with
            rx := rxOf sent2 ++ r
            tx := c.tx ++ Spec.commands cmds1
            seqId := q1 }, a1⟩ = z at k1 k2 k3 ⊢
      obtain ⟨z1, z2, z3⟩ := z
      cases k1
      refine ⟨q, z3, ?_, fun h k => ?_, k3⟩
      · rw [commands_append', List.append_assoc]
        rfl
      · have hs' := (C69_sound S hc upSql downSql w rows ups hs).1
        rw [hy] at hs'
        obtain ⟨done, rest, d1, d2, d3, d4⟩ := C69_rows_down S hc downSql w' rows' downs hs' fun k hk => by
          have := (List.mem_filter.1 (List.mem_reverse.1 hk)).2
          rw [Bool.and_eq_true, decide_eq_true_iff, decide_eq_true_iff] at this
          rw [r1]
          exact List.mem_append_left _ this.2
        rw [d3, List.mem_filter, decide_eq_true_iff, ← d2, k2, ha1, ← e6, ← g6]
        rfl

/-! ### a program -/

/-- A program that starts a migrator and moves to a version, from any state of the database whose records
are of declared migrations: if no error is returned, the records are afterwards exactly the declared
migrations up to the version.
Missing: as for `C84_to_version_partial`. -/
theorem C84_program_partial (hS : FairMig S) (hc : Collates S) (debug : Bool) (fp : FloatParse)
    (upSql downSql : MigKey → Str) (ms : List MigList) (hm : Proper ms)
    (hu : ∀ k ∈ Spec.declared ms, Foreign (upSql k)) (hf : ∀ k ∈ Spec.declared ms, Foreign (downSql k))
    (hn : ∀ k ∈ Spec.declared ms, Plain k) (hl : ∀ k ∈ Spec.declared ms, k.2.length ≤ 255)
    (t : Version) (st : MigStore W) (hs : S.Sound (st.table.getD []))
    (hd : ∀ k ∈ st.table.getD [], k ∈ Spec.declared ms) :
    ∃ cmds sent rows' w' e, S.talk st cmds = some (⟨some rows', w'⟩, sent, Spec.commands cmds) ∧
      (e = none → rows'.Perm ((Spec.declared ms).filter fun k => decide (Spec.rank k.1 ≤ Spec.rank t))) ∧
      ∀ (c : Conn) (r : List Rx), MigRest S c (rxOf sent ++ r) →
        ∃ a c1 q a', migratorOpen debug fp ms c = (.ok a, c1) ∧
          (wired upSql downSql).toVersion t ms ⟨c1, a⟩ = (migOutcome S e, ⟨{ c with
            rx := r
            tx := c.tx ++ Spec.commands cmds
            seqId := q }, a'⟩) := by
  obtain ⟨sent1, h1, h2⟩ := C69_new S hS debug fp ms hm st hs.2
  obtain ⟨cmds, sent2, g1, _, _, g4⟩ := C84_to_version_partial S hS hc upSql downSql ms hm hu hf hn hl t st.world
    (st.table.getD []) hs
  have hr := C84_reached_partial S hc upSql downSql ms hm hl t st.world (st.table.getD []) hs hd
  dsimp only at hr
  generalize S.moveTo upSql downSql st.world (st.table.getD []) (missing (some t) ms (st.table.getD []))
    (present t ms (st.table.getD [])) = y at g1 g4 hr
  have hnd := (C69_sound S hc upSql downSql st.world (st.table.getD []) [] hs).2.2
  generalize openStatements st.table.isSome = os at h1 h2
  refine ⟨os.map cmdOf ++ cmds, sent1 ++ sent2, y.2.1, y.1, y.2.2, ?_, fun h => (hr h).1, fun c r hr => ?_⟩
  · rw [mtalk_append, h1, Option.bind_some]
    dsimp only
    rw [g1, Option.map_some, commands_append']
  · rw [rxOf_append, List.append_assoc] at hr
    obtain ⟨a, q1, k1, k2, k3⟩ := (h2 c (rxOf sent2 ++ r) hr).1 hd
    obtain ⟨q, a', k4, _⟩ := g4 a k2 (k3 hnd) _ r
      (MigRest.next hr (rxOf sent2 ++ r) (c.tx ++ Spec.commands (os.map cmdOf)) q1)
    refine ⟨a, _, q, a', k1, ?_⟩
    rw [k4, commands_append', List.append_assoc]

/-! ### one step down -/

/-- the view after a step down. -/
theorem oneDown_view (upSql downSql : MigKey → Str) (ms : List MigList) (s : MigWire) (k : MigKey)
    (hl : ((Spec.declared ms).filter fun k => decide (Applied s.applied k)).getLast? = some k)
    (h : ((wired upSql downSql).oneDown ms s).1 = .ok true) :
    ((wired upSql downSql).oneDown ms s).2.applied = without s.applied k := by
  have h' : (wired upSql downSql).oneDown ms s = _ := oneDownKeys_wired upSql downSql s _
  rw [declared_reverse, List.filter_reverse, List.head?_reverse, hl] at h'
  dsimp only at h'
  have hk : Applied s.applied k := by simpa using (List.mem_filter.1 (List.mem_of_getLast? hl)).2
  rw [SM.bind_apply, downOne_wired upSql downSql hk] at h'
  rw [h'] at h ⊢
  match h1 : executeQuery (downSql k) s.conn with
  | (.ok x, c1) =>
    rw [h1] at h
    dsimp only at h ⊢
    match h2 : Spec.execAll [deleteSql k] c1 with
    | (.ok (), c2) => rfl
    | (.err e, c2) => rw [h2] at h
    | (.panic, c2) => rw [h2] at h
  | (.err e, c1) => rw [h1] at h; cases h
  | (.panic, c1) => rw [h1] at h; cases h

/-- `one_down`: the last of the declared migrations that is recorded is reverted and its record removed;
`true`; the migrator takes it for applied no longer.  If none is recorded nothing is sent; `false`.
Missing: as for `C69_up_partial`. -/
theorem C84_one_down_partial (hS : FairMig S) (upSql downSql : MigKey → Str) (ms : List MigList)
    (hf : ∀ k ∈ Spec.declared ms, Foreign (downSql k)) (hn : ∀ k ∈ Spec.declared ms, Plain k)
    (w : W) (rows : List MigKey) :
    match ((Spec.declared ms).filter fun k => decide (k ∈ rows)).getLast? with
    | none => ∀ (a : Version → List Str), (∀ k, Applied a k ↔ k ∈ rows) → ∀ c : Conn,
        (wired upSql downSql).oneDown ms ⟨c, a⟩ = (.ok false, ⟨c, a⟩)
    | some k =>
      let y := S.revertAll downSql w rows [k]
      ∃ cmds sent, S.talk ⟨some rows, w⟩ cmds = some (⟨some y.2.1, y.1⟩, sent, Spec.commands cmds) ∧
        cmds <+: [downSql k, deleteSql k].map cmdOf ∧
        (y.2.2 = none → cmds = [downSql k, deleteSql k].map cmdOf) ∧
        ∀ (a : Version → List Str), (∀ k, Applied a k ↔ k ∈ rows) → ∀ (c : Conn) (r : List Rx),
          MigRest S c (rxOf sent ++ r) →
          ∃ q a', (wired upSql downSql).oneDown ms ⟨c, a⟩ = ((migOutcome S y.2.2).map' fun _ => true, ⟨{ c with
            rx := r
            tx := c.tx ++ Spec.commands cmds
            seqId := q }, a'⟩) ∧
            (y.2.2 = none → (∀ v, (a v).Nodup) → (∀ j, Applied a' j ↔ j ∈ rows ∧ j ≠ k) ∧ ∀ v, (a' v).Nodup) := by
  have hfilter : ∀ a : Version → List Str, (∀ k, Applied a k ↔ k ∈ rows) →
      ((Spec.declared ms).filter fun k => decide (Applied a k)) = (Spec.declared ms).filter fun k => decide (k ∈ rows) := by
    intro a ha
    refine List.filter_congr fun k _ => ?_
    simp only [ha]
  match hg : ((Spec.declared ms).filter fun k => decide (k ∈ rows)).getLast? with
  | none =>
    intro a ha c
    have := C68_one_down upSql downSql ms ⟨c, a⟩
    dsimp only at this
    rw [hfilter a ha, hg] at this
    exact this
  | some k =>
    dsimp only
    have hk : k ∈ Spec.declared ms := (List.mem_filter.1 (List.mem_of_getLast? hg)).1
    obtain ⟨cmds, sent, h1, h2, h3, h4⟩ := pairs_talk S hS downSql deleteSql [k]
      (fun j hj => isExec_foreign (hf j (by rw [List.mem_singleton.1 hj]; exact hk)))
      (fun j hj => isExec_delete (hn j (by rw [List.mem_singleton.1 hj]; exact hk))) ⟨some rows, w⟩
    obtain ⟨e1, e2, _⟩ := executeAll_down S downSql [k]
      (fun j hj => hf j (by rw [List.mem_singleton.1 hj]; exact hk))
      (fun j hj => hn j (by rw [List.mem_singleton.1 hj]; exact hk)) w rows
    unfold Spec.downStatements at e1 e2
    rw [e1] at h1
    rw [e2] at h3 h4
    refine ⟨cmds, sent, h1, h2, h3, fun a ha c r hr => ?_⟩
    obtain ⟨⟨q, h5⟩, _⟩ := h4 c r hr
    have := C68_one_down upSql downSql ms ⟨c, a⟩
    dsimp only at this
    rw [hfilter a ha, hg] at this
    obtain ⟨k1, k2⟩ := this
    rw [show [downSql k, deleteSql k] = [k].flatMap (fun k => [downSql k, deleteSql k]) from rfl, h5] at k1
    have hv := oneDown_view upSql downSql ms ⟨c, a⟩ k (by
      show ((Spec.declared ms).filter fun k => decide (Applied a k)).getLast? = some k
      rw [hfilter a ha, hg])
    generalize (wired upSql downSql).oneDown ms ⟨c, a⟩ = z at k1 k2 hv
    obtain ⟨z1, z2, z3⟩ := z
    dsimp only at k1 k2
    injection k1 with k3 k4
    have hz : z1 = (migOutcome S (S.revertAll downSql w rows [k]).2.2).map' fun _ => true := by
      rw [← k3]
      match z1, k2 with
      | .ok true, _ => rfl
      | .ok false, h => exact absurd rfl h
      | .err e, _ => rfl
      | .panic, _ => rfl
    refine ⟨q, z3, by rw [hz, k4], fun h hd => ?_⟩
    rw [h] at hz
    obtain rfl : z3 = without a k := hv hz
    obtain ⟨d1, d2⟩ := without_spec (k := k) hd
    exact ⟨fun j => (d2 j).trans (and_congr_left' (ha j)), d1⟩

/-- Of the records exactly this one is removed, and the one before it is next. -/
theorem C84_step (hc : Collates S) (downSql : MigKey → Str) (ms : List MigList) (w : W) (rows : List MigKey) (hs : S.Sound rows)
    (k : MigKey) (ks : List MigKey) (hk : (Spec.declared ms).filter (fun k => decide (k ∈ rows)) = ks ++ [k])
    (hm : Proper ms) (h : (S.revertAll downSql w rows [k]).2.2 = none) :
    (S.revertAll downSql w rows [k]).2.1 = rows.filter (fun j => decide (j ≠ k)) ∧
    (Spec.declared ms).filter (fun j => decide (j ∈ (S.revertAll downSql w rows [k]).2.1)) = ks := by
  have hmem : k ∈ (Spec.declared ms).filter (fun k => decide (k ∈ rows)) := by rw [hk]; simp
  obtain ⟨done, rest, h1, h2, h3, h4⟩ := C69_rows_down S hc downSql w rows [k] hs fun j hj => by
    rw [List.mem_singleton.1 hj]
    simpa using (List.mem_filter.1 hmem).2
  obtain rfl := h4.1 h
  rw [List.append_nil] at h1
  have e : (S.revertAll downSql w rows [k]).2.1 = rows.filter (fun j => decide (j ≠ k)) := by
    rw [h3, ← h1]
    simp only [List.mem_singleton, ne_eq]
  refine ⟨e, ?_⟩
  have hnd : (ks ++ [k]).Nodup := by rw [← hk]; exact hm.nodup.filter _
  rw [List.nodup_append] at hnd
  have : (Spec.declared ms).filter (fun j => decide (j ∈ rows.filter fun j => decide (j ≠ k))) =
      ((Spec.declared ms).filter fun k => decide (k ∈ rows)).filter fun j => decide (j ≠ k) := by
    rw [List.filter_filter]
    refine List.filter_congr fun j _ => ?_
    simp only [List.mem_filter, decide_eq_true_iff, Bool.decide_and]
    exact Bool.and_comm _ _
  rw [e, this, hk, List.filter_append, List.filter_eq_self.2 fun j hj => ?_]
  · simp
  · rw [decide_eq_true_iff]
    exact fun hjk => hnd.2.2 j hj k (List.mem_singleton.2 rfl) hjk

/-! ### a case -/

namespace C84ex

open C69ex (server v1 sqlOf)

def v2 : Version := ⟨1, 2, 0⟩
def v3 : Version := ⟨2, 0, 0⟩
def ms : List MigList := [⟨v1, [['a'], ['b']]⟩, ⟨v2, [['c']]⟩, ⟨v3, [['a'], ['d']]⟩]
def downOf (k : MigKey) : Str := "down ".toList ++ k.2
/-- `b` was declared after `c` and two of the last version were applied. -/
def rows0 : List MigKey := [(v1, ['a']), (v2, ['c']), (v3, ['a']), (v3, ['d'])]
def S0 : MigServer (List Str) := server false

def cmds0 : List Bytes := [existsSql, selectSql, sqlOf (v1, ['b']), insertSql (v1, ['b']), downOf (v3, ['d']),
  deleteSql (v3, ['d']), downOf (v3, ['a']), deleteSql (v3, ['a'])].map cmdOf
def rx0 : Bytes := ((S0.talk ⟨some rows0, []⟩ cmds0).map fun x => x.2.1).getD []
def first := migratorOpen true C69ex.noFloat ms (exConn rx0)
def view : Version → List Str := match first.1 with | .ok a => a | _ => fun _ => []
def run := (wired sqlOf downOf).toVersion v2 ms ⟨first.2, view⟩

def cmds1 : List Bytes := [downOf (v3, ['d']), deleteSql (v3, ['d'])].map cmdOf
def rx1 : Bytes := ((S0.talk ⟨some rows0, []⟩ cmds1).map fun x => x.2.1).getD []
def step := (wired sqlOf downOf).oneDown ms ⟨exConn rx1, view⟩

end C84ex

open C84ex in
/-- Three versions, one migration missing, two above the target: what the program does, what the table
holds afterwards; and one step down. -/
theorem C84_example :
    Proper ms ∧ (∀ k ∈ Spec.declared ms, Foreign (C69ex.sqlOf k) ∧ Foreign (downOf k) ∧ Plain k) ∧
    S0.moveTo C69ex.sqlOf downOf [] rows0 (missing (some v2) ms rows0) (present v2 ms rows0) =
      (["up b".toList, "down d".toList, "down a".toList], [(C69ex.v1, ['a']), (v2, ['c']), (C69ex.v1, ['b'])], none) ∧
    ((S0.talk ⟨some rows0, []⟩ cmds0).map fun x => (x.1.table, x.1.world)) =
      some (some [(C69ex.v1, ['a']), (v2, ['c']), (C69ex.v1, ['b'])], ["up b".toList, "down d".toList, "down a".toList]) ∧
    (run.1 = .ok () ∧ run.2.conn.tx = Spec.commands cmds0 ∧ run.2.conn.rx = [] ∧
      (Spec.declared ms).map (fun k => decide (Applied run.2.applied k)) = [true, true, true, false, false]) ∧
    (step.1 = .ok true ∧ step.2.conn.tx = Spec.commands cmds1 ∧ step.2.conn.rx = [] ∧
      (Spec.declared ms).map (fun k => decide (Applied step.2.applied k)) = [true, false, true, true, false]) := by
  refine ⟨⟨?_, by decide⟩, ?_, by decide +kernel, by decide +kernel, by decide +kernel, by decide +kernel⟩
  · unfold ms
    simp only [List.pairwise_cons, List.mem_cons, List.not_mem_nil, or_false, forall_eq_or_imp, forall_eq,
      false_imp_iff, implies_true, List.Pairwise.nil, and_true]
    decide
  · unfold Foreign Plain
    decide +kernel

end Verif

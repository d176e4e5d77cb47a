import Verif.Proofs.MigOpen

/-!
# C69 — migrating a database

The migrator against a server with a table of migrations (Spec/MigServer).
-/

namespace Verif

open Spec (MigServer MigStore SqlError Applied)
open Spec.MigServer (talk applyAll revertAll tookEffect undone)

variable {W : Type} (S : MigServer W)

/-! ### starting -/

/-- the statements of `new`. -/
def openStatements (present : Bool) : List Str :=
  (if present then [existsSql] else [existsSql, createSql]) ++ [selectSql]

/-- starting a migrator; what it takes for applied does not depend on the connection. -/
theorem open_talk (hS : FairMig S) (debug : Bool) (fp : FloatParse) (ms : List MigList) (hm : Proper ms)
    (st : MigStore W) (hk : ∀ k ∈ st.table.getD [], k.2.length ≤ 255) :
    ∃ sent, S.talk st ((openStatements st.table.isSome).map cmdOf) =
        some ({ st with table := some (st.table.getD []) }, sent,
          Spec.commands ((openStatements st.table.isSome).map cmdOf)) ∧
      ((∀ k ∈ st.table.getD [], k ∈ Spec.declared ms) → ∃ a, (∀ k, Applied a k ↔ k ∈ st.table.getD []) ∧
        ((st.table.getD []).Nodup → ∀ v, (a v).Nodup) ∧
        ∀ (c : Conn) (r : List Rx), MigRest S c (rxOf sent ++ r) → ∃ q,
          migratorOpen debug fp ms c = (.ok a, { c with
            rx := r
            tx := c.tx ++ Spec.commands ((openStatements st.table.isSome).map cmdOf)
            seqId := q })) ∧
      ((∃ k ∈ st.table.getD [], k ∉ Spec.declared ms) →
        ∀ (c : Conn) (r : List Rx), MigRest S c (rxOf sent ++ r) → (migratorOpen debug fp ms c).1 = .panic) := by
  obtain ⟨sent1, h1, h2⟩ := ensureTable_talk S hS fp st
  obtain ⟨sent2, h3, h4⟩ := loadTable_talk S hS fp ms st.world (st.table.getD []) hk
  have ho : ordered ms = true := by
    rw [C48_ordered]
    simp only [before_rank]
    exact hm.ordered
  have hdbg : (debug && !ordered ms) = false := by rw [ho]; simp
  have hcmds : (openStatements st.table.isSome).map cmdOf =
      (if st.table.isSome then [existsSql] else [existsSql, createSql]).map cmdOf ++ [cmdOf selectSql] := by
    unfold openStatements
    rw [List.map_append, List.map_cons, List.map_nil]
  rw [hcmds]
  generalize (if st.table.isSome then [existsSql] else [existsSql, createSql]).map cmdOf = cmds1 at h1 h2
  have hopen : ∀ (c : Conn) (r : List Rx), MigRest S c (rxOf (sent1 ++ sent2) ++ r) → ∃ c1,
      MigRest S c1 (rxOf sent2 ++ r) ∧ migratorOpen debug fp ms c = loadTable fp ms c1 ∧
      ∃ q1, c1 = { c with
        rx := rxOf sent2 ++ r
        tx := c.tx ++ Spec.commands cmds1
        seqId := q1 } := by
    intro c r hc
    rw [rxOf_append, List.append_assoc] at hc
    obtain ⟨q1, g1⟩ := h2 c (rxOf sent2 ++ r) hc
    refine ⟨_, MigRest.next hc (rxOf sent2 ++ r) (c.tx ++ Spec.commands cmds1) q1, ?_, q1, rfl⟩
    unfold migratorOpen
    rw [hdbg, if_neg (by simp), SM.bind_of_ok g1]
  obtain ⟨m1, m2⟩ := C47_new ms hm (S.order (st.table.getD []))
  have hperm := hS.order (st.table.getD [])
  refine ⟨sent1 ++ sent2, ?_, fun hd => ?_, ?_⟩
  · rw [mtalk_append, h1, Option.bind_some, h3, Option.map_some, commands_append']
  · match hn : migratorNew ms (S.order (st.table.getD [])) with
    | none =>
      exfalso
      obtain ⟨k, hk1, hk2⟩ := m2.1 hn
      exact hk2 (hd k (hperm.mem_iff.1 hk1))
    | some a =>
      refine ⟨a, fun k => (m1 a hn k).trans hperm.mem_iff, fun hnd => ?_, fun c r hc => ?_⟩
      · exact tidy_load ms _ _ _ (fun _ => List.nodup_nil) (hperm.nodup_iff.2 hnd)
          (fun k _ h => by cases h) hn
      · obtain ⟨c1, g1, g2, q1, rfl⟩ := hopen c r hc
        obtain ⟨q, g4⟩ := (h4 _ r g1).1 a hn
        exact ⟨q, by rw [g2, g4, commands_append', List.append_assoc]⟩
  · rintro ⟨k, hk1, hk2⟩ c r hc
    obtain ⟨c1, g1, g2, -⟩ := hopen c r hc
    rw [g2]
    exact (h4 _ r g1).2 (m2.2 ⟨k, hperm.mem_iff.2 hk1, hk2⟩)

/-- Starting a migrator: the table is created if there is none, nothing else changes; the migrator
takes for applied exactly what is recorded; the connection is ready for the next statement.  It
panics if, and only if, a row is not one of the migrations. -/
theorem C69_new (hS : FairMig S) (debug : Bool) (fp : FloatParse) (ms : List MigList) (hm : Proper ms)
    (st : MigStore W) (hk : ∀ k ∈ st.table.getD [], k.2.length ≤ 255) :
    ∃ sent, S.talk st ((openStatements st.table.isSome).map cmdOf) =
        some ({ st with table := some (st.table.getD []) }, sent,
          Spec.commands ((openStatements st.table.isSome).map cmdOf)) ∧
      ∀ (c : Conn) (r : List Rx), MigRest S c (rxOf sent ++ r) →
        ((∀ k ∈ st.table.getD [], k ∈ Spec.declared ms) → ∃ a q,
          migratorOpen debug fp ms c = (.ok a, { c with
            rx := r
            tx := c.tx ++ Spec.commands ((openStatements st.table.isSome).map cmdOf)
            seqId := q }) ∧
          (∀ k, Applied a k ↔ k ∈ st.table.getD []) ∧ ((st.table.getD []).Nodup → ∀ v, (a v).Nodup)) ∧
        ((∃ k ∈ st.table.getD [], k ∉ Spec.declared ms) → (migratorOpen debug fp ms c).1 = .panic) := by
  obtain ⟨sent, h1, h2, h3⟩ := open_talk S hS debug fp ms hm st hk
  refine ⟨sent, h1, fun c r hc => ⟨fun hd => ?_, fun hd => h3 hd c r hc⟩⟩
  obtain ⟨a, g1, g2, g3⟩ := h2 hd
  obtain ⟨q, g4⟩ := g3 c r hc
  exact ⟨a, q, g4, g1, g2⟩

/-! ### up -/

/-- what is to be done with these rows in the table. -/
def missing (t : Option Version) (ms : List MigList) (rows : List MigKey) : List MigKey :=
  (Spec.declared ms).filter fun k => Spec.upTo t k && !decide (k ∈ rows)

def present (t : Version) (ms : List MigList) (rows : List MigKey) : List MigKey :=
  ((Spec.declared ms).filter fun k => decide (Spec.rank t < Spec.rank k.1) && decide (k ∈ rows)).reverse

/-- Migrating up: what the server does is that every migration that is not recorded takes effect, in
the order they are declared, and is recorded, up to the first thing that is refused, which is the
error returned.  Afterwards the migrator takes for applied what was recorded before and what has
taken effect.
Missing: migrations with `"` or `\` in their names (C49); migrations that touch the table `migrations`. -/
theorem C69_up_partial (hS : FairMig S) (upSql downSql : MigKey → Str) (ms : List MigList) (hm : Proper ms)
    (hf : ∀ k ∈ Spec.declared ms, Foreign (upSql k)) (hn : ∀ k ∈ Spec.declared ms, Plain k)
    (t : Option Version) (w : W) (rows : List MigKey) (a : Version → List Str)
    (ha : ∀ k, Applied a k ↔ k ∈ rows) :
    let y := S.applyAll upSql w rows (missing t ms rows)
    ∃ cmds sent, S.talk ⟨some rows, w⟩ cmds = some (⟨some y.2.1, y.1⟩, sent, Spec.commands cmds) ∧
      cmds <+: (Spec.upStatements upSql (missing t ms rows)).map cmdOf ∧
      (y.2.2 = none → cmds = (Spec.upStatements upSql (missing t ms rows)).map cmdOf) ∧
      ∀ (c : Conn) (r : List Rx), MigRest S c (rxOf sent ++ r) →
        ∃ q a', (wired upSql downSql).upToVersion t ms ⟨c, a⟩ = (migOutcome S y.2.2, ⟨{ c with
            rx := r
            tx := c.tx ++ Spec.commands cmds
            seqId := q }, a'⟩) ∧
          (∀ k, Applied a' k ↔ k ∈ rows ∨ k ∈ S.tookEffect upSql w rows (missing t ms rows)) ∧
          ((∀ v, (a v).Nodup) → ∀ v, (a' v).Nodup) := by
  intro y
  have hpend : Spec.pendingUp t ms a = missing t ms rows := by
    unfold Spec.pendingUp missing
    refine List.filter_congr fun k _ => ?_
    simp only [ha]
  have hsub : ∀ k ∈ missing t ms rows, k ∈ Spec.declared ms := fun k hk => (List.mem_filter.1 hk).1
  obtain ⟨cmds, sent, h1, h2, h3, h4⟩ := pairs_talk S hS upSql insertSql (missing t ms rows)
    (fun k hk => isExec_foreign (hf k (hsub k hk))) (fun k hk => isExec_insert (hn k (hsub k hk))) ⟨some rows, w⟩
  obtain ⟨e1, e2, e3⟩ := executeAll_up S upSql (missing t ms rows) (fun k hk => hf k (hsub k hk))
    (fun k hk => hn k (hsub k hk)) w rows
  unfold Spec.upStatements at e1 e2
  rw [e1] at h1
  rw [e2] at h3 h4
  refine ⟨cmds, sent, h1, h2, h3, fun c r hc => ?_⟩
  obtain ⟨⟨q, h5⟩, h6⟩ := h4 c r hc
  obtain ⟨k1, k2⟩ := C68_up upSql downSql ms hm t ⟨c, a⟩
  dsimp only at k1 k2
  rw [hpend] at k1 k2
  unfold Spec.upStatements at k1 k2
  rw [h5] at k1
  refine ⟨q, ((wired upSql downSql).upToVersion t ms ⟨c, a⟩).2.applied, ?_, fun k => ?_,
    tidy_up upSql downSql ms hm t ⟨c, a⟩⟩
  · generalize (wired upSql downSql).upToVersion t ms ⟨c, a⟩ = z at k1
    obtain ⟨z1, z2, z3⟩ := z
    cases k1
    rfl
  · rw [k2, ha, ← e3, ← h6]
    rfl

/-! ### down -/

/-- Migrating down: every recorded migration above the target is reverted, the last first, and its
record removed, up to the first that is refused.
Missing: as for `C69_up_partial`. -/
theorem C69_down_partial (hS : FairMig S) (upSql downSql : MigKey → Str) (ms : List MigList) (hm : Proper ms)
    (hf : ∀ k ∈ Spec.declared ms, Foreign (downSql k)) (hn : ∀ k ∈ Spec.declared ms, Plain k)
    (t : Version) (w : W) (rows : List MigKey) (a : Version → List Str)
    (ha : ∀ k, Applied a k ↔ k ∈ rows) (hd : ∀ v, (a v).Nodup) :
    let y := S.revertAll downSql w rows (present t ms rows)
    ∃ cmds sent, S.talk ⟨some rows, w⟩ cmds = some (⟨some y.2.1, y.1⟩, sent, Spec.commands cmds) ∧
      cmds <+: (Spec.downStatements downSql (present t ms rows)).map cmdOf ∧
      (y.2.2 = none → cmds = (Spec.downStatements downSql (present t ms rows)).map cmdOf) ∧
      ∀ (c : Conn) (r : List Rx), MigRest S c (rxOf sent ++ r) →
        ∃ q a', (wired upSql downSql).downToVersion t ms ⟨c, a⟩ = (migOutcome S y.2.2, ⟨{ c with
            rx := r
            tx := c.tx ++ Spec.commands cmds
            seqId := q }, a'⟩) ∧
          ∀ k, Applied a' k ↔ k ∈ rows ∧ k ∉ S.undone downSql w (present t ms rows) := by
  intro y
  have hpend : Spec.pendingDown t ms a = present t ms rows := by
    unfold Spec.pendingDown present
    congr 1
    refine List.filter_congr fun k _ => ?_
    simp only [ha]
  have hsub : ∀ k ∈ present t ms rows, k ∈ Spec.declared ms := fun k hk =>
    (List.mem_filter.1 (List.mem_reverse.1 hk)).1
  obtain ⟨cmds, sent, h1, h2, h3, h4⟩ := pairs_talk S hS downSql deleteSql (present t ms rows)
    (fun k hk => isExec_foreign (hf k (hsub k hk))) (fun k hk => isExec_delete (hn k (hsub k hk))) ⟨some rows, w⟩
  obtain ⟨e1, e2, e3⟩ := executeAll_down S downSql (present t ms rows) (fun k hk => hf k (hsub k hk))
    (fun k hk => hn k (hsub k hk)) w rows
  unfold Spec.downStatements at e1 e2
  rw [e1] at h1
  rw [e2] at h3 h4
  refine ⟨cmds, sent, h1, h2, h3, fun c r hc => ?_⟩
  obtain ⟨⟨q, h5⟩, h6⟩ := h4 c r hc
  obtain ⟨k1, k2⟩ := C68_down upSql downSql ms hm t ⟨c, a⟩ hd
  dsimp only at k1 k2
  rw [hpend] at k1 k2
  unfold Spec.downStatements at k1 k2
  rw [h5] at k1
  refine ⟨q, ((wired upSql downSql).downToVersion t ms ⟨c, a⟩).2.applied, ?_, fun k => ?_⟩
  · generalize (wired upSql downSql).downToVersion t ms ⟨c, a⟩ = z at k1
    obtain ⟨z1, z2, z3⟩ := z
    cases k1
    rfl
  · rw [k2, ha, ← e3, ← h6]
    rfl

/-! ### what this makes of the table -/

/-- the comparison of names is one, and names that are cut fit. -/
structure Collates : Prop where
  refl : ∀ n, S.same n n = true
  symm : ∀ m n, S.same m n = S.same n m
  cut : ∀ n n', S.long n = .ok n' → n'.length ≤ 255

theorem inserted_ok {w : W} {rows rows' : List MigKey} {k : MigKey}
    (h : S.inserted w rows k.1.major.toNat k.1.minor.toNat k.1.patch.toNat k.2 = .ok rows') :
    ∃ n, (k.2.length ≤ 255 ∧ n = k.2 ∨ 255 < k.2.length ∧ S.long k.2 = .ok n) ∧
      rows' = rows ++ [(k.1, n)] ∧ ∀ j ∈ rows, S.clash j (k.1, n) = false := by
  unfold Spec.MigServer.inserted at h
  split at h
  · split at h
    · cases h
    · rename_i n hl
      dsimp only at h
      split at h
      · cases h
      · rename_i hc
        split at h
        · cases h
        · injection h with h
          have hv : ((⟨.ofNat k.1.major.toNat, .ofNat k.1.minor.toNat, .ofNat k.1.patch.toNat⟩ : Version)) = k.1 := by
            simp
          rw [hv] at h hc
          refine ⟨n, ?_, h.symm, ?_⟩
          · split at hl
            · rename_i hx
              exact .inr ⟨hx, hl⟩
            · rename_i hx
              injection hl with hl
              exact .inl ⟨by omega, hl.symm⟩
          · intro j hj
            have := hc
            simp only [List.any_eq_true, not_exists, not_and, Bool.not_eq_true] at this
            exact this j hj
  · cases h

/-- Migrations are recorded one after the other, in the order they are declared, none is skipped; all of
them if there is no error; what has taken effect is what is recorded and perhaps the next.
Missing: names of more than 255 characters. -/
theorem C69_rows_partial (upSql : MigKey → Str) (w : W) (rows ks : List MigKey)
    (hk : ∀ k ∈ ks, k.2.length ≤ 255) :
    ∃ done rest, ks = done ++ rest ∧ (S.applyAll upSql w rows ks).2.1 = rows ++ done ∧
      ((S.applyAll upSql w rows ks).2.2 = none ↔ rest = []) ∧
      (S.tookEffect upSql w rows ks = done ∨
        ∃ k rest', rest = k :: rest' ∧ S.tookEffect upSql w rows ks = done ++ [k]) := by
  induction ks generalizing w rows with
  | nil => exact ⟨[], [], rfl, by simp [applyAll], by simp [applyAll], .inl rfl⟩
  | cons k ks ih =>
    rw [applyAll, tookEffect]
    match S.foreign w (upSql k) with
    | .error e => exact ⟨[], k :: ks, rfl, by simp, by simp, .inl rfl⟩
    | .ok w' =>
      dsimp only
      match hi : S.inserted w' rows k.1.major.toNat k.1.minor.toNat k.1.patch.toNat k.2 with
      | .error e => exact ⟨[], k :: ks, rfl, by simp, by simp, .inr ⟨k, ks, rfl, rfl⟩⟩
      | .ok rows' =>
        dsimp only
        obtain ⟨n, h1, h2, _⟩ := inserted_ok S hi
        have hl := hk k (List.mem_cons_self ..)
        have hn : n = k.2 := by
          rcases h1 with h1 | h1
          · exact h1.2
          · omega
        subst hn
        obtain ⟨done, rest, i1, i2, i3, i4⟩ := ih w' rows' fun j hj => hk j (List.mem_cons_of_mem _ hj)
        refine ⟨k :: done, rest, by rw [i1]; rfl, ?_, i3, ?_⟩
        · rw [i2, h2]
          simp
        · rcases i4 with i4 | ⟨j, rest', i5, i6⟩
          · exact .inl (by rw [i4])
          · exact .inr ⟨j, rest', i5, by rw [i6]; rfl⟩

/-- The table stays one that the unique index and the width of the column admit. -/
theorem C69_sound (hc : Collates S) (upSql downSql : MigKey → Str) (w : W) (rows ks : List MigKey)
    (h : S.Sound rows) :
    S.Sound (S.applyAll upSql w rows ks).2.1 ∧ S.Sound (S.revertAll downSql w rows ks).2.1 ∧ rows.Nodup := by
  refine ⟨?_, ?_, ?_⟩
  · induction ks generalizing w rows with
    | nil => exact h
    | cons k ks ih =>
      rw [applyAll]
      match S.foreign w (upSql k) with
      | .error e => exact h
      | .ok w' =>
        dsimp only
        match hi : S.inserted w' rows k.1.major.toNat k.1.minor.toNat k.1.patch.toNat k.2 with
        | .error e => exact h
        | .ok rows' =>
          dsimp only
          obtain ⟨n, h1, h2, h3⟩ := inserted_ok S hi
          refine ih w' rows' ?_
          subst h2
          refine ⟨?_, ?_⟩
          · rw [List.pairwise_append]
            refine ⟨h.1, List.pairwise_singleton _ _, fun j hj l hl => ?_⟩
            rw [List.mem_singleton] at hl
            rw [hl]
            exact h3 j hj
          · intro j hj
            rw [List.mem_append, List.mem_singleton] at hj
            rcases hj with hj | rfl
            · exact h.2 j hj
            · rcases h1 with h1 | h1
              · rw [h1.2]; exact h1.1
              · exact hc.cut _ _ h1.2
  · induction ks generalizing w rows with
    | nil => exact h
    | cons k ks ih =>
      rw [revertAll]
      match S.foreign w (downSql k) with
      | .error e => exact h
      | .ok w' =>
        exact ih w' _ ⟨h.1.filter _, fun j hj => h.2 j (List.mem_filter.1 hj).1⟩
  · refine h.1.imp ?_
    rintro j _ hjk rfl
    unfold Spec.MigServer.clash at hjk
    rw [hc.refl] at hjk
    simp at hjk

/-- Of the records, those of the reverted migrations are removed and no others. -/
theorem C69_rows_down (hc : Collates S) (downSql : MigKey → Str) (w : W) (rows ks : List MigKey)
    (h : S.Sound rows) (hk : ∀ k ∈ ks, k ∈ rows) :
    ∃ done rest, ks = done ++ rest ∧ S.undone downSql w ks = done ∧
      (S.revertAll downSql w rows ks).2.1 = rows.filter (fun j => decide (j ∉ done)) ∧
      ((S.revertAll downSql w rows ks).2.2 = none ↔ rest = []) := by
  -- among the rows, only the record itself has the name
  have key : ∀ k ∈ rows, ∀ j ∈ rows, S.clash j k = decide (j = k) := by
    intro k hk j hj
    rw [Bool.eq_iff_iff, decide_eq_true_iff]
    constructor
    · intro hcl
      apply Classical.byContradiction
      intro hne
      have hp : rows.Pairwise fun a b => a ≠ b → S.clash a b = false ∧ S.clash b a = false := by
        refine h.1.imp fun {a b} hab _ => ⟨hab, ?_⟩
        unfold Spec.MigServer.clash at hab ⊢
        rw [hc.symm b.2 a.2, show decide (b.1 = a.1) = decide (a.1 = b.1) by simp [eq_comm]]
        exact hab
      have : Std.Symm fun a b : MigKey => a ≠ b → S.clash a b = false ∧ S.clash b a = false :=
        ⟨fun a b hab hba => (hab (Ne.symm hba)).symm⟩
      have hall := hp.forall_of_forall (fun a _ hne => absurd rfl hne)
      have := (hall hj hk hne).1
      rw [hcl] at this
      cases this
    · rintro rfl
      unfold Spec.MigServer.clash
      rw [hc.refl]
      simp
  have gen : ∀ (ks gone : List MigKey) (w : W), (∀ k ∈ ks, k ∈ rows) →
      ∃ done rest, ks = done ++ rest ∧ S.undone downSql w ks = done ∧
      (S.revertAll downSql w (rows.filter fun j => decide (j ∉ gone)) ks).2.1 =
        rows.filter (fun j => decide (j ∉ gone ++ done)) ∧
      ((S.revertAll downSql w (rows.filter fun j => decide (j ∉ gone)) ks).2.2 = none ↔ rest = []) := by
    intro ks
    induction ks with
    | nil => exact fun gone w _ => ⟨[], [], rfl, rfl, by simp [revertAll], by simp [revertAll]⟩
    | cons k ks ih =>
      intro gone w hk
      rw [revertAll, undone]
      match S.foreign w (downSql k) with
      | .error e => exact ⟨[], k :: ks, rfl, rfl, by simp, by simp⟩
      | .ok w' =>
        dsimp only
        obtain ⟨done, rest, i1, i2, i3, i4⟩ := ih (gone ++ [k]) w' fun j hj => hk j (List.mem_cons_of_mem _ hj)
        have he : ((rows.filter fun j => decide (j ∉ gone)).filter
            fun j => !(decide (j.1 = k.1) && S.same j.2 k.2)) = rows.filter fun j => decide (j ∉ gone ++ [k]) := by
          rw [List.filter_filter]
          refine List.filter_congr fun j hj => ?_
          have := key k (hk k (List.mem_cons_self ..)) j hj
          unfold Spec.MigServer.clash at this
          rw [this]
          simp only [List.mem_append, List.mem_singleton, not_or, Bool.decide_and, decide_not]
          exact Bool.and_comm _ _
        rw [he]
        refine ⟨k :: done, rest, by rw [i1]; rfl, by rw [i2], ?_, i4⟩
        rw [i3]
        simp only [List.append_assoc, List.singleton_append]
  have := gen ks [] w hk
  simpa using this

/-! ### a run, and the next -/

/-- A program that starts a migrator and migrates: from any state of the database, what is not recorded
takes effect and is recorded, in order, up to the first refusal.
Missing: as for `C69_up_partial`. -/
theorem C69_migrate_partial (hS : FairMig S) (debug : Bool) (fp : FloatParse) (upSql downSql : MigKey → Str)
    (ms : List MigList) (hm : Proper ms) (hf : ∀ k ∈ Spec.declared ms, Foreign (upSql k))
    (hn : ∀ k ∈ Spec.declared ms, Plain k) (st : MigStore W)
    (hk : ∀ k ∈ st.table.getD [], k.2.length ≤ 255) (hd : ∀ k ∈ st.table.getD [], k ∈ Spec.declared ms) :
    let rows := st.table.getD []
    let y := S.applyAll upSql st.world rows (missing none ms rows)
    ∃ cmds sent, S.talk st cmds = some (⟨some y.2.1, y.1⟩, sent, Spec.commands cmds) ∧
      cmds <+: (openStatements st.table.isSome ++ Spec.upStatements upSql (missing none ms rows)).map cmdOf ∧
      (missing none ms rows = [] → cmds = (openStatements st.table.isSome).map cmdOf) ∧
      ∀ (c : Conn) (r : List Rx), MigRest S c (rxOf sent ++ r) →
        ∃ a c1 q a', migratorOpen debug fp ms c = (.ok a, c1) ∧
          (wired upSql downSql).up ms ⟨c1, a⟩ = (migOutcome S y.2.2, ⟨{ c with
            rx := r
            tx := c.tx ++ Spec.commands cmds
            seqId := q }, a'⟩) := by
  intro rows y
  obtain ⟨sent1, h1, h2⟩ := C69_new S hS debug fp ms hm st hk
  -- the commands of `up` do not depend on the migrator's view
  obtain ⟨cmds, sent2, g1, g2, g3, g4⟩ : ∃ cmds sent,
      S.talk ⟨some rows, st.world⟩ cmds = some (⟨some y.2.1, y.1⟩, sent, Spec.commands cmds) ∧
      cmds <+: (Spec.upStatements upSql (missing none ms rows)).map cmdOf ∧
      (y.2.2 = none → cmds = (Spec.upStatements upSql (missing none ms rows)).map cmdOf) ∧
      ∀ (a : Version → List Str), (∀ k, Applied a k ↔ k ∈ rows) → ∀ (c : Conn) (r : List Rx),
        MigRest S c (rxOf sent ++ r) →
        ∃ q a', (wired upSql downSql).upToVersion none ms ⟨c, a⟩ = (migOutcome S y.2.2, ⟨{ c with
            rx := r
            tx := c.tx ++ Spec.commands cmds
            seqId := q }, a'⟩) := by
    have ha0 : ∀ k, Applied (fun v => (rows.filter fun k => decide (k.1 = v)).map Prod.snd) k ↔ k ∈ rows := by
      intro k
      unfold Applied
      simp only [List.mem_map, List.mem_filter, decide_eq_true_iff]
      constructor
      · rintro ⟨j, ⟨hj, hv⟩, hn⟩
        rw [show k = j from Prod.ext hv.symm hn.symm]
        exact hj
      · exact fun h => ⟨k, ⟨h, rfl⟩, rfl⟩
    obtain ⟨cmds, sent, u1, u2, u3, u4⟩ := C69_up_partial S hS upSql downSql ms hm hf hn none st.world rows _ ha0
    refine ⟨cmds, sent, u1, u2, u3, fun a ha c r hc => ?_⟩
    obtain ⟨cmds', sent', v1, v2, v3, v4⟩ := C69_up_partial S hS upSql downSql ms hm hf hn none st.world rows a ha
    obtain ⟨q, a', w1, _⟩ := u4 c r hc
    have e : ∀ b : Version → List Str, (∀ k, Applied b k ↔ k ∈ rows) →
        (((wired upSql downSql).upToVersion none ms ⟨c, b⟩).1, ((wired upSql downSql).upToVersion none ms ⟨c, b⟩).2.conn) =
          Spec.execAll (Spec.upStatements upSql (missing none ms rows)) c := by
      intro b hb
      have := (C68_up upSql downSql ms hm none ⟨c, b⟩).1
      dsimp only at this
      rw [this]
      congr 2
      unfold Spec.pendingUp missing
      refine List.filter_congr fun k _ => ?_
      simp only [hb]
    have e0 := e _ ha0
    rw [w1] at e0
    have e1 := (e a ha).trans e0.symm
    refine ⟨q, ((wired upSql downSql).upToVersion none ms ⟨c, a⟩).2.applied, ?_⟩
    generalize (wired upSql downSql).upToVersion none ms ⟨c, a⟩ = z at e1
    obtain ⟨z1, z2, z3⟩ := z
    cases e1
    rfl
  have hst : (({ st with table := some (st.table.getD []) } : MigStore W)) = ⟨some rows, st.world⟩ := rfl
  rw [hst] at h1
  generalize openStatements st.table.isSome = os at h1 h2
  refine ⟨os.map cmdOf ++ cmds, sent1 ++ sent2, ?_, ?_, ?_, fun c r hc => ?_⟩
  · rw [mtalk_append, h1, Option.bind_some, g1, Option.map_some, commands_append']
  · rw [List.map_append]
    exact (List.prefix_append_right_inj _).2 g2
  · intro he
    rw [he] at g2
    have : cmds = [] := List.prefix_nil.1 g2
    rw [this, List.append_nil]
  · rw [rxOf_append, List.append_assoc] at hc
    obtain ⟨a, q1, k1, k2, _⟩ := (h2 c (rxOf sent2 ++ r) hc).1 hd
    obtain ⟨q, a', k3⟩ := g4 a k2 _ r (MigRest.next hc (rxOf sent2 ++ r) (c.tx ++ Spec.commands (os.map cmdOf)) q1)
    refine ⟨a, _, q, a', k1, ?_⟩
    show (wired upSql downSql).upToVersion none ms _ = _
    rw [k3, commands_append', List.append_assoc]

/-- The next run takes up where this one stopped, with the first migration that is not recorded; if
this one returned no error there is nothing left to do.
Missing: names of more than 255 characters. -/
theorem C69_retry_partial (upSql : MigKey → Str) (ms : List MigList) (hm : Proper ms)
    (hl : ∀ k ∈ Spec.declared ms, k.2.length ≤ 255) (t : Option Version) (w : W) (rows : List MigKey) :
    let y := S.applyAll upSql w rows (missing t ms rows)
    ∃ done rest, missing t ms rows = done ++ rest ∧ y.2.1 = rows ++ done ∧ missing t ms y.2.1 = rest ∧
      (y.2.2 = none ↔ rest = []) := by
  intro y
  obtain ⟨done, rest, h1, h2, h3, _⟩ := C69_rows_partial S upSql w rows (missing t ms rows)
    fun k hk => hl k (List.mem_filter.1 hk).1
  refine ⟨done, rest, h1, h2, ?_, h3⟩
  have e : missing t ms (rows ++ done) = (missing t ms rows).filter fun k => decide (k ∉ done) := by
    unfold missing
    rw [List.filter_filter]
    refine List.filter_congr fun k _ => ?_
    simp only [List.mem_append]
    by_cases ha : k ∈ rows <;> by_cases hb : k ∈ done <;> simp [ha, hb]
  rw [h2, e, h1]
  have hnd : (done ++ rest).Nodup := by
    rw [← h1]
    exact hm.nodup.filter _
  rw [List.nodup_append] at hnd
  rw [List.filter_append, List.filter_eq_nil_iff.2 (by simp), List.nil_append, List.filter_eq_self]
  intro k hk
  simp only [decide_eq_true_iff]
  exact fun hk' => hnd.2.2 k hk' k hk rfl

/-! ### where it goes wrong, and a case -/

namespace C69ex

/-- ASCII letters without case. -/
def lower (s : Str) : Str := s.map fun c => if 'A' ≤ c ∧ c ≤ 'Z' then Char.ofNat (c.toNat + 32) else c
def ci (a b : Str) : Bool := lower a == lower b

/-- a server that keeps a log of the statements about other things, and refuses `boom`; names that are
too long are cut or refused. -/
def server (cut : Bool) : MigServer (List Str) where
  foreign w text := if text = "boom".toList then .error ⟨1064, "42000".toList, "no".toList⟩ else .ok (w ++ [text])
  same := ci
  duplicate _ := ⟨1062, "23000".toList, "dup".toList⟩
  long s := if cut then .ok (s.take 255) else .error ⟨1406, "22001".toList, []⟩
  outOfRange := ⟨1264, "22003".toList, []⟩
  noTable := ⟨1146, "42S02".toList, []⟩
  hasTable := ⟨1050, "42S01".toList, []⟩
  refuse _ _ _ := none
  order := List.reverse
  partitions := 0
  oneDesc := ⟨[], [], [], ['1'], [], 63, 1, 3, 129, 0⟩
  desc _ := ⟨['d'], "migrations".toList, "migrations".toList, [], [], 33, 5, 0, 0x5021, 0⟩
  affected n := .ofNat n
  status := 2
  warnings := 0
  message := []
  protocol41 := true

theorem fair (cut : Bool) : FairMig (server cut) := by
  have h5 : ∀ (e : SqlError) (n : UInt16) (s : Str), e.code = n → e.state = s → (utf8 s).length = 5 → n ≠ 0xFFFF →
      (utf8 e.state).length = 5 ∧ e.code ≠ 0xFFFF := by
    rintro e _ _ rfl rfl h1 h2
    exact ⟨h1, h2⟩
  refine ⟨by cases cut <;> decide, fun e he => ?_, fun rows => List.reverse_perm rows, fun col => ?_, ?_⟩
  · cases he with
    | foreign h =>
      unfold server at h
      dsimp only at h
      split at h
      · cases h; decide +kernel
      · cases h
    | duplicate => exact h5 _ 1062 "23000".toList rfl rfl (by decide +kernel) (by decide)
    | long h =>
      cases cut
      · cases h
        exact h5 _ _ _ rfl rfl (by decide +kernel) (by decide)
      · cases h
    | outOfRange => exact h5 _ 1264 "22003".toList rfl rfl (by decide +kernel) (by decide)
    | noTable => exact h5 _ 1146 "42S02".toList rfl rfl (by decide +kernel) (by decide)
    | hasTable => exact h5 _ 1050 "42S01".toList rfl rfl (by decide +kernel) (by decide)
    | refuse h => cases h
  · show shortNames ⟨['d'], "migrations".toList, "migrations".toList, [], [], 33, 5, 0, 0x5021, 0⟩ ∧
      (0x5021 : Nat) < 2 ^ 16 ∧ (33 : Nat) < 2 ^ 16 ∧ (5 : Nat) < 2 ^ 32
    unfold shortNames
    decide +kernel
  · refine ⟨.long, ?_, 4, false, rfl, by decide, by cases cut <;> decide +kernel⟩
    show DescOk ⟨[], [], [], ['1'], [], 63, 1, 3, 129, 0⟩ .long
    unfold DescOk shortNames
    decide +kernel

theorem collates (cut : Bool) : Collates (server cut) := by
  refine ⟨fun n => beq_self_eq_true _, fun m n => ?_, fun n n' h => ?_⟩
  · show (lower m == lower n) = (lower n == lower m)
    rw [Bool.eq_iff_iff, beq_iff_eq, beq_iff_eq]
    exact eq_comm
  · cases cut
    · cases h
    · cases h
      rw [List.length_take]
      omega

def sqlOf (k : MigKey) : Str := "up ".toList ++ k.2
def v1 : Version := ⟨1, 0, 0⟩

end C69ex

open C69ex in
/-- Two migrations of one version whose names the server takes for equal: the second takes effect,
its record is refused; and again with every further attempt. -/
theorem C69_collation_violated :
    let S := server false
    let ms : List MigList := [⟨v1, [['a'], ['A']]⟩]
    let y := S.applyAll sqlOf [] [] (missing none ms [])
    let z := S.applyAll sqlOf y.1 y.2.1 (missing none ms y.2.1)
    Proper ms ∧ FairMig S ∧ Collates S ∧
      y = (["up a".toList, "up A".toList], [(v1, ['a'])], some ⟨1062, "23000".toList, "dup".toList⟩) ∧
      z = (["up a".toList, "up A".toList, "up A".toList], [(v1, ['a'])], some ⟨1062, "23000".toList, "dup".toList⟩) := by
  exact ⟨⟨by simp, by simp⟩, fair _, collates _, by decide +kernel, by decide +kernel⟩

open C69ex in
/-- A name that is too long, on a server that cuts it: migrating succeeds, and after that the row is not
one of the migrations, so that no migrator can be started (`C69_new`). -/
theorem C69_long_violated :
    let S := server true
    let n := List.replicate 256 'x'
    let ms : List MigList := [⟨v1, [n]⟩]
    let y := S.applyAll sqlOf [] [] (missing none ms [])
    Proper ms ∧ FairMig S ∧ Collates S ∧ y.2 = ([(v1, List.replicate 255 'x')], none) ∧
      ∃ k ∈ y.2.1, k ∉ Spec.declared ms := by
  refine ⟨⟨List.pairwise_singleton _ _, fun m hm => ?_⟩, fair _, collates _, by decide +kernel, ?_⟩
  · rw [List.mem_singleton] at hm
    subst hm
    exact List.pairwise_singleton _ _
  refine ⟨(v1, List.replicate 255 'x'), by decide +kernel, by decide +kernel⟩

namespace C69ex

/-- three migrations, one recorded; the third is refused. -/
def ms : List MigList := [⟨v1, [['a'], "b b".toList]⟩, ⟨⟨1, 2, 3⟩, ["boom".toList]⟩]
def upOf (k : MigKey) : Str := if k.2 = "boom".toList then k.2 else sqlOf k
def S0 : MigServer (List Str) := server false
def st0 : MigStore (List Str) := ⟨some [(v1, ['a'])], []⟩

example : missing none ms [(v1, ['a'])] = [(v1, "b b".toList), (⟨1, 2, 3⟩, "boom".toList)] := by decide +kernel
example : S0.applyAll upOf [] [(v1, ['a'])] (missing none ms [(v1, ['a'])]) =
    (["up b b".toList], [(v1, ['a']), (v1, "b b".toList)], some ⟨1064, "42000".toList, "no".toList⟩) := by decide +kernel

/-- the hypotheses hold. -/
example : Proper ms ∧ (∀ k ∈ Spec.declared ms, Foreign (upOf k)) ∧ (∀ k ∈ Spec.declared ms, Plain k) := by
  refine ⟨⟨?_, ?_⟩, ?_, ?_⟩
  · unfold ms
    simp only [List.pairwise_cons, List.mem_singleton, forall_eq, List.not_mem_nil, false_imp_iff, implies_true,
      List.Pairwise.nil, and_true]
    decide
  · decide
  · unfold Foreign
    decide +kernel
  · unfold Plain
    decide +kernel

/-- the bytes of the two sides, and the program that reads and writes them. -/
def cmds : List Bytes := [existsSql, selectSql, upOf (v1, "b b".toList), insertSql (v1, "b b".toList), "boom".toList].map cmdOf
def rx0 : Bytes := ((S0.talk st0 cmds).map fun x => x.2.1).getD []
def noFloat : FloatParse := ⟨fun _ => none, fun _ => none⟩
def first := migratorOpen true noFloat ms (exConn rx0)
def view : Version → List Str := match first.1 with | .ok a => a | _ => fun _ => []
def run := (wired upOf upOf).up ms ⟨first.2, view⟩

example : ((S0.talk st0 cmds).map fun x => (x.1.table, x.1.world)) =
    some (some [(v1, ['a']), (v1, "b b".toList)], ["up b b".toList]) := by decide +kernel
example : run.2.conn.tx = Spec.commands cmds ∧ run.2.conn.rx = [] ∧ run.1 ≠ .ok () ∧
    (Spec.declared ms).map (fun k => decide (Applied view k)) = [true, false, false] ∧
    (Spec.declared ms).map (fun k => decide (Applied run.2.applied k)) = [true, true, false] := by decide +kernel

/-- from nothing: the table is created. -/
example : ((S0.talk ⟨none, []⟩ ([existsSql, createSql, selectSql].map cmdOf)).map fun x => (x.1.table, x.1.world)) =
    some (some [], []) := by decide +kernel

end C69ex

end Verif

import Verif.Proofs.Migrator

/-!
# C44 … C47 — the migrator

A migration is known by its version and name, and the table has a unique index over both; two
migrations of one name in one version are outside of the claims (the second is never run,
`C44_same_name`).
-/

namespace Verif

/-- What a migrator is given: versions in order (`debug_assert!` in `new`), no name twice in one. -/
structure Proper (ms : List MigList) : Prop where
  ordered : ms.Pairwise fun a b => Spec.rank a.version < Spec.rank b.version
  names : ∀ m ∈ ms, m.names.Nodup

theorem Proper.nodup {ms : List MigList} (h : Proper ms) : (Spec.declared ms).Nodup := by
  obtain ⟨ho, hn⟩ := h
  induction ms with
  | nil => exact List.nodup_nil
  | cons m ms ih =>
    rw [List.pairwise_cons] at ho
    unfold Spec.declared
    rw [List.flatMap_cons, List.nodup_append]
    refine ⟨?_, ih ho.2 fun a ha => hn a (List.mem_cons_of_mem _ ha), ?_⟩
    · have := hn m (List.mem_cons_self ..)
      unfold List.Nodup at this ⊢
      rw [List.pairwise_map]
      exact this.imp fun hne hh => hne (Prod.mk.inj hh).2
    · intro a ha b hb hab
      obtain ⟨n, _, rfl⟩ := List.mem_map.1 ha
      obtain ⟨m', hm', hb'⟩ := List.mem_flatMap.1 hb
      obtain ⟨n', _, rfl⟩ := List.mem_map.1 hb'
      have := ho.1 m' hm'
      rw [(Prod.mk.inj hab).1] at this
      omega

theorem Proper.nodup_reverse {ms : List MigList} (h : Proper ms) : (Spec.declared ms).reverse.Nodup :=
  (List.reverse_perm _).nodup_iff.2 h.nodup

/-- the migrations `up_to_version` has to run. -/
def Spec.toApply (t : Option Version) (ms : List MigList) (s : MigState) : List MigKey :=
  (Spec.declared ms).filter fun k => Spec.upTo t k && !Spec.isApplied s k

/-- the migrations `down_to_version` has to undo, last first. -/
def Spec.toRevert (t : Version) (ms : List MigList) (s : MigState) : List MigKey :=
  ((Spec.declared ms).filter fun k => decide (Spec.rank t < Spec.rank k.1) && Spec.isApplied s k).reverse

theorem pend_eq (t : Option Version) (ms : List MigList) (s : MigState) :
    pend s ((Spec.declared ms).filter (Spec.upTo t)) = Spec.toApply t ms s := by
  unfold pend Spec.toApply
  rw [List.filter_filter]
  exact List.filter_congr fun k _ => Bool.and_comm _ _

theorem live_eq (t : Version) (ms : List MigList) (s : MigState) :
    live s ((Spec.declared ms).reverse.filter (above t)) = Spec.toRevert t ms s := by
  unfold live Spec.toRevert above
  rw [List.filter_filter, ← List.filter_reverse]
  exact List.filter_congr fun k _ => Bool.and_comm _ _

/-- Going up attempts the effects (the action, a connection, the record) of exactly the migrations
still to be applied, in declaration order, until the first does not succeed, whose error is
returned; whatever the outcomes are and wherever the process dies. -/
theorem C44_runs (ms : List MigList) (hp : Proper ms) (t : Option Version) (s : MigState) :
    (upToVersion t ms s).1 = (Spec.perform ((Spec.toApply t ms s).flatMap Spec.applying) s.script).2 ∧
    (upToVersion t ms s).2.log =
      s.log ++ (Spec.perform ((Spec.toApply t ms s).flatMap Spec.applying) s.script).1 := by
  rw [upToVersion_eq, ← pend_eq]
  exact upKeys_log _ (hp.nodup.filter _) s

/-- If it succeeds, all of them are in effect, recorded and in the migrator's view. -/
theorem C44_records (ms : List MigList) (hp : Proper ms) (t : Option Version) (s s' : MigState)
    (h : upToVersion t ms s = (.ok (), s')) :
    s'.schema = s.schema ++ Spec.toApply t ms s ∧ s'.db = s.db ++ Spec.toApply t ms s ∧
    ∀ k, Spec.isApplied s' k = true ↔
      Spec.isApplied s k = true ∨ k ∈ Spec.declared ms ∧ Spec.upTo t k = true := by
  rw [upToVersion_eq] at h
  obtain ⟨h1, h2, h3⟩ := upKeys_ok _ (hp.nodup.filter _) s s' h
  rw [pend_eq] at h1 h2
  refine ⟨h2, h1, fun k => ?_⟩
  rw [h3 k]
  simp [List.mem_filter]

/-- Running it again does nothing at all. -/
theorem C44_again (ms : List MigList) (hp : Proper ms) (t : Option Version) (s s' : MigState)
    (h : upToVersion t ms s = (.ok (), s')) : upToVersion t ms s' = (.ok (), s') := by
  have h3 := (C44_records ms hp t s s' h).2.2
  rw [upToVersion_eq]
  have : ∀ ks : List MigKey, (∀ k ∈ ks, Spec.isApplied s' k = true) → upKeys ks s' = (.ok (), s') := by
    intro ks
    induction ks with
    | nil => exact fun _ => rfl
    | cons k ks ih =>
      intro hk
      rw [upKeys, SM.bind_apply, upOne_skip (hk k (List.mem_cons_self ..))]
      exact ih fun j hj => hk j (List.mem_cons_of_mem _ hj)
  refine this _ fun k hk => (h3 k).2 (.inr ?_)
  exact List.mem_filter.1 hk

/-- A second migration of the same name in the same version is never run. -/
theorem C44_same_name (v : Version) (n : Str) (s : MigState)
    (h : Spec.isApplied s (v, n) = false) (os : List MigOut) (hs : s.script = .ok :: .ok :: .ok :: os) :
    ((up [⟨v, [n, n]⟩] s).2.log = s.log ++ [(.up (v, n), .ok), (.conn, .ok), (.insert (v, n), .ok)]) := by
  rw [up_def, upToVersion_eq]
  show (upKeys [(v, n), (v, n)] s).2.log = _
  rw [upKeys, SM.bind_apply]
  have he := upOne_end h
  match hr : upOne (v, n) s with
  | (.ok (), s1) =>
    rw [hr] at he
    cases he with
    | done h1 h2 h3 h4 h5 =>
      dsimp only
      have ha : Spec.isApplied s1 (v, n) = true := by
        have := isApplied_insert s (v, n) (v, n) s1.db s1.schema s1.log s1.script
        rw [← h3] at this
        rw [show s1 = { db := s1.db, schema := s1.schema, log := s1.log, script := s1.script,
                        applied := s1.applied } from rfl, this]
        simp
      rw [upKeys, SM.bind_apply, upOne_skip ha]
      exact h5
  | (.err e, s1) =>
    rw [hr] at he
    cases he with
    | stopped _ _ h2 =>
      have := (h2 []).2
      rw [hs] at this
      cases this
  | (.panic, s1) => rw [hr] at he; cases he

/-! ### down -/

/-- Going down attempts the effects (the action, a connection, removing the record) of exactly the
applied migrations above the target, in reverse declaration order, until the first does not
succeed. -/
theorem C45_runs (ms : List MigList) (hp : Proper ms) (t : Version) (s : MigState) (hn : Neat s) :
    (downToVersion t ms s).1 = (Spec.perform ((Spec.toRevert t ms s).flatMap Spec.reverting) s.script).2 ∧
    (downToVersion t ms s).2.log =
      s.log ++ (Spec.perform ((Spec.toRevert t ms s).flatMap Spec.reverting) s.script).1 := by
  rw [downToVersion_eq, ← live_eq]
  exact downKeys_log _ ((hp.nodup_reverse).filter _) s hn

/-- If it succeeds, exactly these are no longer in effect, recorded, and in the migrator's view. -/
theorem C45_records (ms : List MigList) (hp : Proper ms) (t : Version) (s s' : MigState) (hn : Neat s)
    (h : downToVersion t ms s = (.ok (), s')) :
    s'.schema = s.schema.filter (fun k => k ∉ Spec.toRevert t ms s) ∧
    s'.db = s.db.filter (fun k => k ∉ Spec.toRevert t ms s) ∧ Neat s' ∧
    ∀ k, Spec.isApplied s' k = true ↔
      Spec.isApplied s k = true ∧ ¬(k ∈ Spec.declared ms ∧ Spec.rank t < Spec.rank k.1) := by
  rw [downToVersion_eq] at h
  obtain ⟨h1, h2, h3, h4⟩ := downKeys_ok _ ((hp.nodup_reverse).filter _) s s' hn h
  rw [live_eq] at h1 h2
  refine ⟨h2, h1, h3, fun k => ?_⟩
  rw [h4 k]
  simp only [List.mem_filter, above, List.mem_reverse, Bool.and_eq_true, decide_eq_true_eq]

/-- undoing one: nothing applied. -/
theorem C45_one_none (ms : List MigList) (s : MigState)
    (h : ∀ k ∈ Spec.declared ms, Spec.isApplied s k = false) : oneDown ms s = (.ok false, s) := by
  rw [oneDown_def]
  rw [declared_reverse]
  have : ∀ ks : List MigKey, (∀ k ∈ ks, Spec.isApplied s k = false) → oneDownKeys ks s = (.ok false, s) := by
    intro ks
    induction ks with
    | nil => exact fun _ => rfl
    | cons k ks ih =>
      intro hk
      rw [oneDownKeys_cons, SM.get_bind_apply, getApplied_none.2 (hk k (List.mem_cons_self ..))]
      exact ih fun j hj => hk j (List.mem_cons_of_mem _ hj)
  exact this _ fun k hk => h k (List.mem_reverse.1 hk)

theorem oneDownKeys_some (s : MigState) (ks : List MigKey) (k : MigKey)
    (h : (ks.filter fun k => Spec.isApplied s k).head? = some k) :
    oneDownKeys ks s = (downOne k >>= fun _ => (pure true : MigM Bool)) s := by
  induction ks with
  | nil => cases h
  | cons j ks ih =>
    rw [oneDownKeys_cons, SM.get_bind_apply]
    by_cases hj : Spec.isApplied s j = true
    · rw [List.filter_cons_of_pos (by simp [hj])] at h
      cases h
      match hg : getApplied s.applied k with
      | none => rw [getApplied_none, hj] at hg; cases hg
      | some i =>
        dsimp only
        rw [SM.bind_apply, SM.bind_apply]
        have : downOne k s = downAt k i s := by
          rw [downOne_def]
          rw [SM.get_bind_apply, hg]
        rw [this]
    · have hj' : Spec.isApplied s j = false := by simpa using hj
      rw [List.filter_cons_of_neg (by simp [hj'])] at h
      rw [getApplied_none.2 hj']
      exact ih h

/-- Undoing one undoes the last applied migration, and no other. -/
theorem C45_one (ms : List MigList) (s : MigState) (hn : Neat s) (k : MigKey)
    (h : ((Spec.declared ms).filter fun k => Spec.isApplied s k).getLast? = some k) :
    (oneDown ms s).2.log = s.log ++ (Spec.perform (Spec.reverting k) s.script).1 ∧
    (∀ b, (oneDown ms s).1 = .ok b → b = true ∧
      (oneDown ms s).2.db = s.db.filter (· ≠ k) ∧ (oneDown ms s).2.schema = s.schema.filter (· ≠ k) ∧
      ∀ j, Spec.isApplied (oneDown ms s).2 j = true ↔ Spec.isApplied s j = true ∧ j ≠ k) ∧
    (∀ e, (oneDown ms s).1 = .err e ↔ (Spec.perform (Spec.reverting k) s.script).2 = .err e) := by
  have hk : Spec.isApplied s k = true := by
    have := List.mem_of_getLast? h
    exact (List.mem_filter.1 this).2
  have hh : oneDown ms s = (downOne k >>= fun _ => (pure true : MigM Bool)) s := by
    rw [oneDown_def]
    rw [declared_reverse]
    refine oneDownKeys_some s _ k ?_
    rw [List.filter_reverse, List.head?_reverse]
    exact h
  rw [hh, SM.bind_apply]
  have he := downOne_end hn hk
  match hr : downOne k s with
  | (.ok (), s1) =>
    rw [hr] at he
    cases he with
    | done h1 h2 h3 h4 h5 =>
      dsimp only
      rw [h4, Spec.reverting]
      refine ⟨h5, fun b hb => ?_, fun e => ⟨(by intro h; cases h), (by intro h; cases h)⟩⟩
      cases hb
      refine ⟨rfl, h1, h2, fun j => ?_⟩
      show Spec.isApplied s1 j = true ↔ _
      rw [isApplied_removed h3]
      simp
  | (.err e, s1) =>
    rw [hr] at he
    cases he with
    | stopped _ _ h2 =>
      obtain ⟨h3, h4⟩ := h2 []
      rw [List.append_nil] at h3 h4
      refine ⟨h3, (by intro b hb; cases hb), fun e' => ?_⟩
      rw [h4]
      exact ⟨fun h => by cases h; rfl, fun h => by cases h; rfl⟩
  | (.panic, s1) => rw [hr] at he; cases he

/-! ### to a version -/

/-- After successfully moving to a version, exactly the migrations up to it are in effect, recorded
and in the migrator's view. -/
theorem C46_exact (ms : List MigList) (hp : Proper ms) (v : Version) (s s' : MigState) (hn : Neat s)
    (ha : Spec.agree s) (hs : Spec.inSync s) (hk : ∀ k ∈ s.db, k ∈ Spec.declared ms)
    (h : toVersion v ms s = (.ok (), s')) (k : MigKey) :
    (k ∈ s'.db ↔ k ∈ Spec.declared ms ∧ Spec.rank k.1 ≤ Spec.rank v) ∧
    (k ∈ s'.schema ↔ k ∈ Spec.declared ms ∧ Spec.rank k.1 ≤ Spec.rank v) ∧
    (Spec.isApplied s' k = true ↔ k ∈ Spec.declared ms ∧ Spec.rank k.1 ≤ Spec.rank v) := by
  rw [toVersion_def] at h
  obtain ⟨_, s1, h1, h2⟩ := SM.bind_eq_ok.1 h
  obtain ⟨u1, u2, u3⟩ := C44_records ms hp _ s s1 h1
  have hn1 : Neat s1 := by
    rw [upToVersion_eq] at h1
    exact upKeys_neat _ s hn |> fun hh => by rw [h1] at hh; exact hh
  obtain ⟨d1, d2, _, d4⟩ := C45_records ms hp v s1 s' hn1 h2
  have hk' : ∀ k, Spec.isApplied s k = true → k ∈ Spec.declared ms := fun k hh => hk k ((hs k).1 hh)
  have hview : Spec.isApplied s' k = true ↔ k ∈ Spec.declared ms ∧ Spec.rank k.1 ≤ Spec.rank v := by
    rw [d4 k, u3 k]
    constructor
    · rintro ⟨h1 | h1, h2⟩
      · exact ⟨hk' k h1, by have := hk' k h1; have : ¬ Spec.rank v < Spec.rank k.1 := fun hh => h2 ⟨hk' k h1, hh⟩; omega⟩
      · simpa [Spec.upTo] using h1
    · rintro ⟨h1, h2⟩
      exact ⟨.inr ⟨h1, by simpa [Spec.upTo] using h2⟩, fun hh => by omega⟩
  have hrev : k ∈ Spec.toRevert v ms s1 ↔
      k ∈ Spec.declared ms ∧ Spec.rank v < Spec.rank k.1 ∧ Spec.isApplied s1 k = true := by
    unfold Spec.toRevert
    simp [List.mem_filter]
  have happ : k ∈ Spec.toApply (some v) ms s ↔
      k ∈ Spec.declared ms ∧ Spec.rank k.1 ≤ Spec.rank v ∧ Spec.isApplied s k = false := by
    unfold Spec.toApply
    simp [List.mem_filter, Spec.upTo]
  have hdb : k ∈ s'.db ↔ k ∈ Spec.declared ms ∧ Spec.rank k.1 ≤ Spec.rank v := by
    rw [d2, List.mem_filter, u2, List.mem_append, happ]
    simp only [hrev, decide_eq_true_eq, u3 k]
    constructor
    · rintro ⟨h1 | h1, h2⟩
      · refine ⟨hk k h1, ?_⟩
        by_cases hlt : Spec.rank v < Spec.rank k.1
        · exact absurd ⟨hk k h1, hlt, .inl ((hs k).2 h1)⟩ h2
        · omega
      · exact ⟨h1.1, h1.2.1⟩
    · rintro ⟨h1, h2⟩
      refine ⟨?_, fun hh => by have := hh.2.1; omega⟩
      by_cases hap : Spec.isApplied s k = true
      · exact .inl ((hs k).1 hap)
      · exact .inr ⟨h1, h2, by simpa using hap⟩
  refine ⟨hdb, ?_, hview⟩
  rw [← hdb, d1, d2, List.mem_filter, List.mem_filter, u1, u2, List.mem_append, List.mem_append, ha k]

/-! ### crashes

A script that ends early is a crash at this point, so the theorems hold at every point of a run. -/

/-- at most one migration is in effect without being recorded, and all recorded ones are in effect. -/
def Spec.behindByOne (s : MigState) : Prop :=
  (∀ k ∈ s.db, k ∈ s.schema) ∧ ∀ j ∈ s.schema, ∀ k ∈ s.schema, j ∉ s.db → k ∉ s.db → j = k

/-- at most one migration is recorded without being in effect, and all in effect are recorded. -/
def Spec.aheadByOne (s : MigState) : Prop :=
  (∀ k ∈ s.schema, k ∈ s.db) ∧ ∀ j ∈ s.db, ∀ k ∈ s.db, j ∉ s.schema → k ∉ s.schema → j = k

theorem UpLag.one {ks : List MigKey} {s : MigState} (h : UpLag ks s) : Spec.behindByOne s :=
  ⟨h.sub, fun j hj k hk hj' hk' => by
    have := h.first j hj hj'
    rw [h.first k hk hk'] at this
    exact (Option.some.inj this).symm⟩

theorem DownLag.one {ks : List MigKey} {s : MigState} (h : DownLag ks s) : Spec.aheadByOne s :=
  ⟨h.sub, fun j hj k hk hj' hk' => by
    have := h.first j hj hj'
    rw [h.first k hk hk'] at this
    exact (Option.some.inj this).symm⟩

theorem UpLag.of_agree {s : MigState} (h : Spec.agree s) (ks : List MigKey) : UpLag ks s :=
  ⟨fun k hk => (h k).1 hk, fun j hj hj' => absurd ((h j).2 hj) hj'⟩

theorem DownLag.of_agree {s : MigState} (h : Spec.agree s) (ks : List MigKey) : DownLag ks s :=
  ⟨fun k hk => (h k).2 hk, fun j hj hj' => absurd ((h j).1 hj) hj'⟩

/-- Wherever a run of up ends, at most the migration in progress is unrecorded. -/
theorem C47_up_partial (ms : List MigList) (t : Option Version) (s : MigState)
    (ha : Spec.agree s) (hs : Spec.inSync s) : Spec.behindByOne (upToVersion t ms s).2 := by
  rw [upToVersion_eq]
  exact (upKeys_lag _ s hs (.of_agree ha _)).1.one

/-- Wherever a run of down ends, at most the record of the migration in progress is left. -/
theorem C47_down_partial (ms : List MigList) (hp : Proper ms) (t : Version) (s : MigState) (hn : Neat s)
    (ha : Spec.agree s) (hs : Spec.inSync s) : Spec.aheadByOne (downToVersion t ms s).2 := by
  rw [downToVersion_eq]
  exact (downKeys_lag _ s hn hs (.of_agree ha _) (hp.nodup_reverse.filter _)).1.one

/-- A new migrator's view is what the table says; it panics exactly if a row is none of its
migrations. -/
theorem C47_new (ms : List MigList) (hp : Proper ms) (rows : List MigKey) :
    (∀ a, migratorNew ms rows = some a → ∀ k : MigKey, k.2 ∈ a k.1 ↔ k ∈ rows) ∧
    (migratorNew ms rows = none ↔ ∃ k ∈ rows, k ∉ Spec.declared ms) := by
  have known : ∀ k, isKnown ms k = true ↔ k ∈ Spec.declared ms := by
    intro k
    have ho := hp.ordered
    clear hp
    unfold isKnown Spec.declared
    induction ms with
    | nil => simp
    | cons m ms ih =>
      rw [List.pairwise_cons] at ho
      rw [List.find?_cons, List.flatMap_cons, List.mem_append]
      by_cases hv : m.version = k.1
      · have hno : k ∉ ms.flatMap fun m => m.names.map fun n => (m.version, n) := by
          intro hk
          obtain ⟨m', hm', hk'⟩ := List.mem_flatMap.1 hk
          obtain ⟨n, _, rfl⟩ := List.mem_map.1 hk'
          have := ho.1 m' hm'
          rw [hv] at this
          exact absurd this (Nat.lt_irrefl _)
        rw [show (m.version == k.1) = true by simpa using hv]
        dsimp only
        rw [List.contains_iff_mem]
        constructor
        · exact fun h => .inl (List.mem_map.2 ⟨k.2, h, Prod.ext hv rfl⟩)
        · rintro (h | h)
          · obtain ⟨n, hn, rfl⟩ := List.mem_map.1 h
            exact hn
          · exact absurd h hno
      · rw [show (m.version == k.1) = false by simpa using hv]
        dsimp only
        refine (ih ho.2).trans ?_
        constructor
        · exact .inr
        · rintro (h | h)
          · obtain ⟨n, hn, rfl⟩ := List.mem_map.1 h
            exact absurd rfl hv
          · exact h
  refine ⟨fun a ha k => migratorNew_mem ha k, ?_, ?_⟩
  · intro h
    refine Classical.byContradiction fun hno => ?_
    obtain ⟨b, hb⟩ := loadApplied_some ms rows (fun _ => []) fun k hk =>
      (known k).2 (Classical.byContradiction fun hh => hno ⟨k, hk, hh⟩)
    unfold migratorNew at h
    rw [h] at hb
    cases hb
  · rintro ⟨k, hk, hk'⟩
    refine loadApplied_none ms rows _ ⟨k, hk, ?_⟩
    have := mt (known k).1 hk'
    simpa using this

/-- start a new migrator after a crash. -/
def restarted (s : MigState) (a : Version → List Str) (script : List MigOut) : MigState :=
  { s with applied := a, script := script }

theorem perform_mem {es : List MigEff} {os : List MigOut} {e : MigEff} {o : MigOut}
    (h : (e, o) ∈ (Spec.perform es os).1) : e ∈ es := by
  induction es generalizing os with
  | nil => cases h
  | cons x es ih =>
    match os with
    | [] => cases h
    | y :: os =>
      rw [Spec.perform] at h
      split at h
      · rcases List.mem_cons.1 h with h | h
        · cases h; exact List.mem_cons_self ..
        · exact List.mem_cons_of_mem _ (ih h)
      · rcases List.mem_cons.1 h with h | h
        · cases h; exact List.mem_cons_self ..
        · cases h

/-- Resuming with a new migrator runs no migration up that is recorded, and none down that is not. -/
theorem C47_resume (ms : List MigList) (hp : Proper ms) (s : MigState) (hd : s.db.Nodup)
    (a : Version → List Str) (hnew : migratorNew ms s.db = some a) (script : List MigOut) :
    (∀ t, ∃ new, (upToVersion t ms (restarted s a script)).2.log = s.log ++ new ∧
      (∀ k o, (MigEff.up k, o) ∈ new → k ∉ s.db) ∧ ∀ k o, (MigEff.down k, o) ∉ new) ∧
    (∀ t, ∃ new, (downToVersion t ms (restarted s a script)).2.log = s.log ++ new ∧
      (∀ k o, (MigEff.down k, o) ∈ new → k ∈ s.db) ∧ ∀ k o, (MigEff.up k, o) ∉ new) := by
  have hs : ∀ k, Spec.isApplied (restarted s a script) k = true ↔ k ∈ s.db := by
    intro k
    unfold Spec.isApplied restarted
    simp only [decide_eq_true_eq]
    exact migratorNew_mem hnew k
  have hn : Neat (restarted s a script) := fun v => migratorNew_neat hnew hd v
  refine ⟨fun t => ⟨_, (C44_runs ms hp t _).2, fun k o h => ?_, fun k o h => ?_⟩,
    fun t => ⟨_, (C45_runs ms hp t _ hn).2, fun k o h => ?_, fun k o h => ?_⟩⟩
  · obtain ⟨j, hj, hk⟩ := List.mem_flatMap.1 (perform_mem h)
    have : k = j := by simpa [Spec.applying] using hk
    subst this
    unfold Spec.toApply at hj
    have := (List.mem_filter.1 hj).2
    simp only [Bool.and_eq_true, Bool.not_eq_true'] at this
    intro hh
    rw [(hs k).2 hh] at this
    cases this.2
  · obtain ⟨j, hj, hk⟩ := List.mem_flatMap.1 (perform_mem h)
    simp [Spec.applying] at hk
  · obtain ⟨j, hj, hk⟩ := List.mem_flatMap.1 (perform_mem h)
    have : k = j := by simpa [Spec.reverting] using hk
    subst this
    unfold Spec.toRevert at hj
    have := (List.mem_filter.1 (List.mem_reverse.1 hj)).2
    simp only [Bool.and_eq_true] at this
    exact (hs k).1 this.2
  · obtain ⟨j, hj, hk⟩ := List.mem_flatMap.1 (perform_mem h)
    simp [Spec.reverting] at hk

/-- run `up_to_version` with a new migrator for every crash. -/
def upRuns (t : Option Version) (ms : List MigList) : List (List MigOut) → MigState → MigState
  | [], s => s
  | sc :: scs, s =>
    match migratorNew ms s.db with
    | some a => upRuns t ms scs (upToVersion t ms (restarted s a sc)).2
    | none => s

/-- Any number of crashed and resumed runs of up leave at most one migration unrecorded, and no
restart panics. -/
theorem C47_up_runs_partial (ms : List MigList) (hp : Proper ms) (t : Option Version)
    (scripts : List (List MigOut)) (s : MigState) (ha : Spec.agree s)
    (hk : ∀ k ∈ s.db, k ∈ Spec.declared ms) :
    Spec.behindByOne (upRuns t ms scripts s) ∧ migratorNew ms (upRuns t ms scripts s).db ≠ none := by
  have key : ∀ (scripts : List (List MigOut)) (s : MigState),
      UpLag ((Spec.declared ms).filter (Spec.upTo t)) s → (∀ k ∈ s.db, k ∈ Spec.declared ms) →
      UpLag ((Spec.declared ms).filter (Spec.upTo t)) (upRuns t ms scripts s) ∧
      ∀ k ∈ (upRuns t ms scripts s).db, k ∈ Spec.declared ms := by
    intro scripts
    induction scripts with
    | nil => exact fun s h1 h2 => ⟨h1, h2⟩
    | cons sc scs ih =>
      intro s h1 h2
      rw [upRuns]
      match hn : migratorNew ms s.db with
      | none => exact ⟨h1, h2⟩
      | some a =>
        dsimp only
        have hs : Spec.inSync (restarted s a sc) := by
          intro k
          unfold Spec.isApplied restarted
          simp only [decide_eq_true_eq]
          exact migratorNew_mem hn k
        have := upKeys_lag _ (restarted s a sc) hs ⟨h1.sub, h1.first⟩
        rw [← upToVersion_eq] at this
        refine ih _ this.1 fun k hk => ?_
        rcases this.2.2 k hk with h | h
        · exact h2 k h
        · exact (List.mem_filter.1 h).1
  obtain ⟨h1, h2⟩ := key scripts s (.of_agree ha _) hk
  refine ⟨h1.one, fun hn => ?_⟩
  obtain ⟨k, hk1, hk2⟩ := ((C47_new ms hp _).2).1 hn
  exact hk2 (h2 k hk1)

/-- run `down_to_version` with a new migrator for every crash. -/
def downRuns (t : Version) (ms : List MigList) : List (List MigOut) → MigState → MigState
  | [], s => s
  | sc :: scs, s =>
    match migratorNew ms s.db with
    | some a => downRuns t ms scs (downToVersion t ms (restarted s a sc)).2
    | none => s

theorem C47_down_runs_partial (ms : List MigList) (hp : Proper ms) (t : Version)
    (scripts : List (List MigOut)) (s : MigState) (ha : Spec.agree s) (hd : s.db.Nodup)
    (hk : ∀ k ∈ s.db, k ∈ Spec.declared ms) :
    Spec.aheadByOne (downRuns t ms scripts s) ∧ migratorNew ms (downRuns t ms scripts s).db ≠ none := by
  have key : ∀ (scripts : List (List MigOut)) (s : MigState), s.db.Nodup →
      DownLag ((Spec.declared ms).reverse.filter (above t)) s → (∀ k ∈ s.db, k ∈ Spec.declared ms) →
      DownLag ((Spec.declared ms).reverse.filter (above t)) (downRuns t ms scripts s) ∧
      ∀ k ∈ (downRuns t ms scripts s).db, k ∈ Spec.declared ms := by
    intro scripts
    induction scripts with
    | nil => exact fun s _ h1 h2 => ⟨h1, h2⟩
    | cons sc scs ih =>
      intro s h0 h1 h2
      rw [downRuns]
      match hn : migratorNew ms s.db with
      | none => exact ⟨h1, h2⟩
      | some a =>
        dsimp only
        have hs : Spec.inSync (restarted s a sc) := by
          intro k
          unfold Spec.isApplied restarted
          simp only [decide_eq_true_eq]
          exact migratorNew_mem hn k
        have := downKeys_lag _ (restarted s a sc) (fun v => migratorNew_neat hn h0 v) hs ⟨h1.sub, h1.first⟩
          (hp.nodup_reverse.filter _)
        rw [← downToVersion_eq] at this
        exact ih _ (this.2.2.2 h0) this.1 fun k hk => h2 k (this.2.1 k hk)
  obtain ⟨h1, h2⟩ := key scripts s hd (.of_agree ha _) hk
  refine ⟨h1.one, fun hn => ?_⟩
  obtain ⟨k, hk1, hk2⟩ := ((C47_new ms hp _).2).1 hn
  exact hk2 (h2 k hk1)

/-- Moving to a version: wherever it ends, records and effects differ in at most one migration. -/
theorem C47_to_version_partial (ms : List MigList) (hp : Proper ms) (v : Version) (s : MigState)
    (hn : Neat s) (ha : Spec.agree s) (hs : Spec.inSync s) :
    Spec.behindByOne (toVersion v ms s).2 ∨ Spec.aheadByOne (toVersion v ms s).2 := by
  rw [toVersion_def]
  rw [SM.bind_apply]
  match hu : upToVersion (some v) ms s with
  | (.ok (), s1) =>
    right
    have hn1 : Neat s1 := by
      have := upKeys_neat ((Spec.declared ms).filter (Spec.upTo (some v))) s hn
      rw [← upToVersion_eq, hu] at this
      exact this
    obtain ⟨u1, u2, u3⟩ := C44_records ms hp _ s s1 hu
    have ha1 : Spec.agree s1 := by
      intro k
      rw [u1, u2, List.mem_append, List.mem_append, ha k]
    have hs1 : Spec.inSync s1 := by
      intro k
      rw [u3 k, u2, List.mem_append, hs k]
      unfold Spec.toApply
      rw [List.mem_filter]
      have := hs k
      by_cases hk : k ∈ s.db
      · simp [hk]
      · have : Spec.isApplied s k = false := by
          cases hh : Spec.isApplied s k with
          | false => rfl
          | true => exact absurd (this.1 hh) hk
        simp [hk, this]
    exact C47_down_partial ms hp v s1 hn1 ha1 hs1
  | (.err e, s1) =>
    left
    have := C47_up_partial ms (some v) s ha hs
    rw [hu] at this
    exact this
  | (.panic, s1) =>
    left
    have := C47_up_partial ms (some v) s ha hs
    rw [hu] at this
    exact this

/-! ### concrete runs -/

namespace C47

def v1 : Version := ⟨1, 0, 0⟩
def v2 : Version := ⟨1, 2, 0⟩
def ms : List MigList := [⟨v1, [['a'], ['b']]⟩, ⟨v2, [['c']]⟩]
def empty : MigState := { db := [], schema := [], log := [], script := [], applied := fun _ => [] }
def ok3 : List MigOut := [.ok, .ok, .ok]

theorem proper : Proper ms := ⟨by decide, by decide⟩

end C47

/-- The same migrator used again after a failure: the insert of `a` fails, so `a` is not recorded, but
counts as applied; in the second run the insert of `b` fails; now two are unrecorded.  (Nothing ever
records `a`, until a new migrator runs it a second time.) -/
theorem C47_reuse_violated : ∃ (ms : List MigList) (s : MigState) (script : List MigOut),
    Proper ms ∧ Spec.agree s ∧ Spec.inSync s ∧ Neat s ∧
    ¬ Spec.behindByOne (up ms { (up ms s).2 with script := script }).2 := by
  refine ⟨C47.ms, { C47.empty with script := [.ok, .ok, .err] }, [.ok, .ok, .err], C47.proper, ?_, ?_, ?_, ?_⟩
  · intro k; exact ⟨(fun h => by cases h), (fun h => by cases h)⟩
  · intro k
    constructor
    · intro h
      simp [Spec.isApplied, C47.empty] at h
    · intro h; cases h
  · intro v; exact List.nodup_nil
  · intro h
    have := h.2 (C47.v1, ['a']) (by decide +kernel) (C47.v1, ['b']) (by decide +kernel)
      (by decide +kernel) (by decide +kernel)
    revert this
    decide

namespace C47

/-- all three applied. -/
def full : MigState := (up ms { empty with script := ok3 ++ ok3 ++ ok3 }).2

example : full.db = [(v1, ['a']), (v1, ['b']), (v2, ['c'])] ∧ full.schema = full.db := by decide +kernel
example : ((upToVersion (some v1) ms { empty with script := ok3 ++ ok3 ++ ok3 }).2).db =
    [(v1, ['a']), (v1, ['b'])] := by decide +kernel
example : ((downToVersion ⟨0, 9, 9⟩ ms { full with script := ok3 ++ ok3 ++ ok3, log := [] }).2).log =
    [(.down (v2, ['c']), .ok), (.conn, .ok), (.delete (v2, ['c']), .ok),
     (.down (v1, ['b']), .ok), (.conn, .ok), (.delete (v1, ['b']), .ok),
     (.down (v1, ['a']), .ok), (.conn, .ok), (.delete (v1, ['a']), .ok)] := by decide +kernel
example : (oneDown ms { full with script := ok3 }).2.db = [(v1, ['a']), (v1, ['b'])] := by decide +kernel
-- `b` in effect, not recorded, when the process dies after its action
example : let s := (up ms { empty with script := ok3 ++ [.ok] }).2
    s.schema = [(v1, ['a']), (v1, ['b'])] ∧ s.db = [(v1, ['a'])] := by decide +kernel
-- the row of `b` left behind when the process dies on the way down
example : let s := (downToVersion v1 ms { full with script := [.ok] }).2
    s.schema = [(v1, ['a']), (v1, ['b'])] ∧ s.db = full.db := by decide +kernel
example : (migratorNew ms [(v1, ['x'])]).isNone = true := by decide +kernel
example : (toVersion v1 ms { full with script := ok3 }).2.db = [(v1, ['a']), (v1, ['b'])] := by decide +kernel

end C47

end Verif

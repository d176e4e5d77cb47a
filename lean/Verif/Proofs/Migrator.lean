import Verif.Spec.Migrate

/-! # Lemmas about the migrator -/

namespace Verif

/-! ### versions -/

theorem cmp16_lt {a b : UInt16} : cmp16 a b = .lt ↔ a.toNat < b.toNat := by
  unfold cmp16; exact Nat.compare_eq_lt
theorem cmp16_eq {a b : UInt16} : cmp16 a b = .eq ↔ a.toNat = b.toNat := by
  unfold cmp16; exact Nat.compare_eq_eq
theorem cmp16_gt {a b : UInt16} : cmp16 a b = .gt ↔ b.toNat < a.toNat := by
  unfold cmp16; exact Nat.compare_eq_gt

theorem Version.cmp_eq (a b : Version) : a.cmp b = compare (Spec.rank a) (Spec.rank b) := by
  obtain ⟨a0, a1, a2⟩ := a
  obtain ⟨b0, b1, b2⟩ := b
  have := a0.toNat_lt; have := a1.toNat_lt; have := a2.toNat_lt
  have := b0.toNat_lt; have := b1.toNat_lt; have := b2.toNat_lt
  unfold Version.cmp Spec.rank
  match h0 : cmp16 a0 b0 with
  | .lt => simp only; rw [cmp16_lt] at h0; exact (Nat.compare_eq_lt.2 (by omega)).symm
  | .gt => simp only; rw [cmp16_gt] at h0; exact (Nat.compare_eq_gt.2 (by omega)).symm
  | .eq =>
    simp only
    rw [cmp16_eq] at h0
    match h1 : cmp16 a1 b1 with
    | .lt => simp only; rw [cmp16_lt] at h1; exact (Nat.compare_eq_lt.2 (by omega)).symm
    | .gt => simp only; rw [cmp16_gt] at h1; exact (Nat.compare_eq_gt.2 (by omega)).symm
    | .eq =>
      simp only
      rw [cmp16_eq] at h1
      match h2 : cmp16 a2 b2 with
      | .lt => rw [cmp16_lt] at h2; exact (Nat.compare_eq_lt.2 (by omega)).symm
      | .gt => rw [cmp16_gt] at h2; exact (Nat.compare_eq_gt.2 (by omega)).symm
      | .eq => rw [cmp16_eq] at h2; exact (Nat.compare_eq_eq.2 (by omega)).symm

theorem Version.gt_iff (a b : Version) : a.gt b = decide (Spec.rank b < Spec.rank a) := by
  unfold Version.gt
  rw [Version.cmp_eq]
  by_cases h : Spec.rank b < Spec.rank a
  · rw [Nat.compare_eq_gt.2 h]; simp [h]
  · have : compare (Spec.rank a) (Spec.rank b) ≠ .gt := fun hh => h (Nat.compare_eq_gt.1 hh)
    simp [h, this]

theorem Version.ge_iff (a b : Version) : a.ge b = decide (Spec.rank b ≤ Spec.rank a) := by
  unfold Version.ge
  rw [Version.cmp_eq]
  by_cases h : Spec.rank a < Spec.rank b
  · rw [Nat.compare_eq_lt.2 h]; simp; omega
  · have : compare (Spec.rank a) (Spec.rank b) ≠ .lt := fun hh => h (Nat.compare_eq_lt.1 hh)
    rw [decide_eq_true (by omega)]
    simpa using this

theorem rank_inj {a b : Version} (h : Spec.rank a = Spec.rank b) : a = b := by
  obtain ⟨a0, a1, a2⟩ := a
  obtain ⟨b0, b1, b2⟩ := b
  have := a0.toNat_lt; have := a1.toNat_lt; have := a2.toNat_lt
  have := b0.toNat_lt; have := b1.toNat_lt; have := b2.toNat_lt
  unfold Spec.rank at h
  simp only at h
  have h0 : a0 = b0 := UInt16.toNat_inj.1 (by omega)
  have h1 : a1 = b1 := UInt16.toNat_inj.1 (by omega)
  have h2 : a2 = b2 := UInt16.toNat_inj.1 (by omega)
  rw [h0, h1, h2]

/-! ### the view -/

theorem getApplied_none {s : MigState} {k : MigKey} :
    getApplied s.applied k = none ↔ Spec.isApplied s k = false := by
  unfold getApplied Spec.isApplied
  rw [List.findIdx?_eq_none_iff]
  simp only [decide_eq_false_iff_not]
  constructor
  · intro h hm
    have := h k.2 hm
    simp at this
  · intro h x hx
    simp
    intro hh
    exact h (hh ▸ hx)

theorem isApplied_insert (s : MigState) (k j : MigKey) (db schema log script) :
    Spec.isApplied { db := db, schema := schema, log := log, script := script,
                     applied := insertApplied s.applied k } j =
      (Spec.isApplied s j || decide (j = k)) := by
  unfold Spec.isApplied insertApplied
  obtain ⟨v, n⟩ := k
  obtain ⟨w, m⟩ := j
  by_cases h : w = v
  · simp [h]
  · simp [h]

/-! ### up -/

theorem sm_assoc {σ ε α β γ : Type} (m : SM σ ε α) (f : α → SM σ ε β) (g : β → SM σ ε γ) :
    (m >>= f) >>= g = m >>= fun a => f a >>= g := by
  funext s
  rw [SM.bind_apply, SM.bind_apply, SM.bind_apply]
  match m s with
  | (.ok a, s') => rfl
  | (.err e, s') => rfl
  | (.panic, s') => rfl

theorem pure_bind_sm {σ ε β : Type} (m : SM σ ε β) :
    ((pure () : SM σ ε Unit) >>= fun _ => m) = m := rfl

namespace MigEnv

variable {σ ε : Type} (E : MigEnv σ ε)

/-- `up_to_version` over a list of keys. -/
def upKeys : List MigKey → SM σ ε Unit
  | [] => pure ()
  | k :: ks => do
    E.upOne k
    upKeys ks

theorem upKeys_append (a b : List MigKey) : E.upKeys (a ++ b) = (E.upKeys a >>= fun _ => E.upKeys b) := by
  induction a with
  | nil => rfl
  | cons k a ih =>
    rw [List.cons_append, upKeys, upKeys, ih, sm_assoc]

theorem upNames_eq (v : Version) (ns : List Str) : E.upNames v ns = E.upKeys (ns.map fun n => (v, n)) := by
  induction ns with
  | nil => rfl
  | cons n ns ih => rw [upNames, List.map_cons, upKeys, ih]

theorem upToVersion_eq (t : Option Version) (ms : List MigList) :
    E.upToVersion t ms = E.upKeys ((Spec.declared ms).filter (Spec.upTo t)) := by
  induction ms with
  | nil => rfl
  | cons m ms ih =>
    rw [upToVersion, ih]
    unfold Spec.declared
    rw [List.flatMap_cons, List.filter_append, upKeys_append]
    congr 1
    unfold upVersion
    cases t with
    | none =>
      dsimp only
      have : ∀ l : List MigKey, l.filter (Spec.upTo none) = l := fun l =>
        List.filter_eq_self.2 fun _ _ => rfl
      rw [upNames_eq, this]
    | some v =>
      simp only [Version.gt_iff]
      by_cases h : Spec.rank v < Spec.rank m.version
      · rw [if_pos (by simpa using h)]
        have : (m.names.map fun n => (m.version, n)).filter (Spec.upTo (some v)) = [] := by
          rw [List.filter_eq_nil_iff]
          intro k hk
          obtain ⟨n, _, rfl⟩ := List.mem_map.1 hk
          simp [Spec.upTo]
          omega
        rw [this]
        rfl
      · rw [if_neg (by simpa using h), upNames_eq]
        congr 1
        refine (List.filter_eq_self.2 fun k hk => ?_).symm
        obtain ⟨n, _, rfl⟩ := List.mem_map.1 hk
        simp [Spec.upTo]
        omega

/-- `down_to_version` over a list of keys. -/
def downKeys : List MigKey → SM σ ε Unit
  | [] => pure ()
  | k :: ks => do
    E.downOne k
    downKeys ks

theorem downKeys_append (a b : List MigKey) :
    E.downKeys (a ++ b) = (E.downKeys a >>= fun _ => E.downKeys b) := by
  induction a with
  | nil => rfl
  | cons k a ih => rw [List.cons_append, downKeys, downKeys, ih, sm_assoc]

theorem downNames_eq (v : Version) (ns : List Str) :
    E.downNames v ns = E.downKeys (ns.map fun n => (v, n)) := by
  induction ns with
  | nil => rfl
  | cons n ns ih => rw [downNames, List.map_cons, downKeys, ih]

end MigEnv

/-- migrations above the target. -/
def above (t : Version) (k : MigKey) : Bool := decide (Spec.rank t < Spec.rank k.1)

theorem declared_reverse (ms : List MigList) :
    (ms.reverse.flatMap fun m => m.names.reverse.map fun n => (m.version, n)) =
      (Spec.declared ms).reverse := by
  induction ms with
  | nil => rfl
  | cons m ms ih =>
    unfold Spec.declared at ih ⊢
    rw [List.reverse_cons, List.flatMap_append, ih]
    simp [List.map_reverse]

namespace MigEnv

variable {σ ε : Type} (E : MigEnv σ ε)

theorem downVersions_eq (t : Version) (ms : List MigList) :
    E.downVersions t ms = E.downKeys ((ms.flatMap fun m => m.names.reverse.map fun n => (m.version, n)).filter (above t)) := by
  induction ms with
  | nil => rfl
  | cons m ms ih =>
    rw [downVersions, ih, List.flatMap_cons, List.filter_append, downKeys_append]
    congr 1
    unfold downVersion
    rw [Version.gt_iff]
    by_cases h : Spec.rank t < Spec.rank m.version
    · rw [if_pos (by simpa using h), downNames_eq]
      congr 1
      refine (List.filter_eq_self.2 fun k hk => ?_).symm
      obtain ⟨n, _, rfl⟩ := List.mem_map.1 hk
      simpa [above] using h
    · rw [if_neg (by simpa using h)]
      have : (m.names.reverse.map fun n => (m.version, n)).filter (above t) = [] := by
        rw [List.filter_eq_nil_iff]
        intro k hk
        obtain ⟨n, _, rfl⟩ := List.mem_map.1 hk
        simpa [above] using h
      rw [this]
      rfl

theorem downToVersion_eq (t : Version) (ms : List MigList) :
    E.downToVersion t ms = E.downKeys ((Spec.declared ms).reverse.filter (above t)) := by
  unfold downToVersion
  rw [downVersions_eq, declared_reverse]

end MigEnv

/-- with effects by script. -/
def upKeys : List MigKey → MigM Unit
  | [] => pure ()
  | k :: ks => do
    upOne k
    upKeys ks

def downKeys : List MigKey → MigM Unit
  | [] => pure ()
  | k :: ks => do
    downOne k
    downKeys ks

theorem scripted_upKeys (ks : List MigKey) : scripted.upKeys ks = upKeys ks := by
  induction ks with
  | nil => rfl
  | cons k ks ih => rw [upKeys, ← ih]; rfl

theorem scripted_downKeys (ks : List MigKey) : scripted.downKeys ks = downKeys ks := by
  induction ks with
  | nil => rfl
  | cons k ks ih => rw [downKeys, ← ih]; rfl

theorem upToVersion_eq (t : Option Version) (ms : List MigList) :
    upToVersion t ms = upKeys ((Spec.declared ms).filter (Spec.upTo t)) := by
  rw [← scripted_upKeys, ← scripted.upToVersion_eq]

theorem downToVersion_eq (t : Version) (ms : List MigList) :
    downToVersion t ms = downKeys ((Spec.declared ms).reverse.filter (above t)) := by
  rw [← scripted_downKeys, ← scripted.downToVersion_eq]

theorem up_def (ms : List MigList) : up ms = upToVersion none ms := rfl

theorem toVersion_def (t : Version) (ms : List MigList) : toVersion t ms = (do
    upToVersion (some t) ms
    downToVersion t ms) := rfl

theorem oneDown_def (ms : List MigList) : oneDown ms =
    oneDownKeys (ms.reverse.flatMap fun m => m.names.reverse.map fun n => (m.version, n)) := rfl

theorem oneDownKeys_cons (k : MigKey) (ks : List MigKey) : oneDownKeys (k :: ks) = (do
    let s ← SM.get
    match getApplied s.applied k with
    | some i => do
      downAt k i
      pure true
    | none => oneDownKeys ks) := rfl

theorem upOne_def (k : MigKey) : upOne k = (do
    let s ← SM.get
    match getApplied s.applied k with
    | some _ => pure ()
    | none => do
      effect (.up k)
      SM.modify fun s => { s with applied := insertApplied s.applied k }
      effect .conn
      effect (.insert k)) := rfl

theorem downAt_def (k : MigKey) (i : Nat) : downAt k i = (do
    effect (.down k)
    SM.modify fun s => { s with
      applied := fun v => if v = k.1 then swapRemove (s.applied v) i else s.applied v }
    effect .conn
    effect (.delete k)) := rfl

theorem downOne_def (k : MigKey) : downOne k = (do
    let s ← SM.get
    match getApplied s.applied k with
    | some i => downAt k i
    | none => pure ()) := rfl

/-- what applying one migration does. -/
theorem upOne_skip {s : MigState} {k : MigKey} (h : Spec.isApplied s k = true) :
    upOne k s = (.ok (), s) := by
  rw [upOne_def]
  rw [SM.get_bind_apply]
  match hg : getApplied s.applied k with
  | some _ => rfl
  | none => rw [getApplied_none] at hg; rw [hg] at h; cases h

/-- the possible ends of an attempt to apply `k`. -/
inductive UpEnd (k : MigKey) (s s' : MigState) : Out MigErr Unit → Prop where
  | done : s'.db = s.db ++ [k] → s'.schema = s.schema ++ [k] →
      s'.applied = insertApplied s.applied k → s.script = .ok :: .ok :: .ok :: s'.script →
      s'.log = s.log ++ [(.up k, .ok), (.conn, .ok), (.insert k, .ok)] → UpEnd k s s' (.ok ())
  | stopped (e : MigErr) : (s'.db = s.db ∧ s'.schema = s.schema ∧ s'.applied = s.applied ∨
        s'.db = s.db ∧ s'.schema = s.schema ++ [k] ∧ s'.applied = s.applied ∨
        s'.db = s.db ∧ s'.schema = s.schema ++ [k] ∧ s'.applied = insertApplied s.applied k ∨
        s'.db = s.db ++ [k] ∧ s'.schema = s.schema ++ [k] ∧ s'.applied = insertApplied s.applied k) →
      (∀ rest, s'.log = s.log ++ (Spec.perform (Spec.applying k ++ rest) s.script).1 ∧
        (Spec.perform (Spec.applying k ++ rest) s.script).2 = .err e) →
      UpEnd k s s' (.err e)

theorem upOne_end {s : MigState} {k : MigKey} (h : Spec.isApplied s k = false) :
    UpEnd k s (upOne k s).2 (upOne k s).1 := by
  rw [upOne_def]
  rw [SM.get_bind_apply, getApplied_none.2 h]
  dsimp only
  obtain ⟨db, schema, log, script, applied⟩ := s
  match script with
  | [] => exact .stopped _ (.inl ⟨rfl, rfl, rfl⟩) fun rest => ⟨by simp [Spec.perform, Spec.applying, effect, SM.bind_apply], rfl⟩
  | .err :: os => exact .stopped _ (.inl ⟨rfl, rfl, rfl⟩) fun rest => ⟨rfl, rfl⟩
  | .errDone :: os => exact .stopped _ (.inr (.inl ⟨rfl, rfl, rfl⟩)) fun rest => ⟨rfl, rfl⟩
  | .ok :: [] => exact .stopped _ (.inr (.inr (.inl ⟨rfl, rfl, rfl⟩))) fun rest => ⟨rfl, rfl⟩
  | .ok :: .err :: os =>
    exact .stopped _ (.inr (.inr (.inl ⟨rfl, rfl, rfl⟩))) fun rest =>
      ⟨by simp [Spec.perform, Spec.applying, effect, SM.bind_apply, MigState.apply], rfl⟩
  | .ok :: .errDone :: os =>
    exact .stopped _ (.inr (.inr (.inl ⟨rfl, rfl, rfl⟩))) fun rest =>
      ⟨by simp [Spec.perform, Spec.applying, effect, SM.bind_apply, MigState.apply], rfl⟩
  | .ok :: .ok :: [] =>
    exact .stopped _ (.inr (.inr (.inl ⟨rfl, rfl, rfl⟩))) fun rest =>
      ⟨by simp [Spec.perform, Spec.applying, effect, SM.bind_apply, MigState.apply], rfl⟩
  | .ok :: .ok :: .err :: os =>
    exact .stopped _ (.inr (.inr (.inl ⟨rfl, rfl, rfl⟩))) fun rest =>
      ⟨by simp [Spec.perform, Spec.applying, effect, SM.bind_apply, MigState.apply], rfl⟩
  | .ok :: .ok :: .errDone :: os =>
    exact .stopped _ (.inr (.inr (.inr ⟨rfl, rfl, rfl⟩))) fun rest =>
      ⟨by simp [Spec.perform, Spec.applying, effect, SM.bind_apply, MigState.apply], rfl⟩
  | .ok :: .ok :: .ok :: os =>
    exact .done rfl rfl rfl rfl (by simp [effect, SM.bind_apply, MigState.apply])

theorem perform_ok3 (a b c : MigEff) (rest : List MigEff) (os : List MigOut) :
    Spec.perform (a :: b :: c :: rest) (.ok :: .ok :: .ok :: os) =
      ((a, .ok) :: (b, .ok) :: (c, .ok) :: (Spec.perform rest os).1, (Spec.perform rest os).2) := rfl

/-- the migrations of `ks` still to be applied. -/
def pend (s : MigState) (ks : List MigKey) : List MigKey := ks.filter fun k => !Spec.isApplied s k

theorem pend_insert {s s' : MigState} {k : MigKey} {ks : List MigKey} (hk : k ∉ ks)
    (ha : s'.applied = insertApplied s.applied k) : pend s' ks = pend s ks := by
  unfold pend
  refine List.filter_congr fun j hj => ?_
  have hne : j ≠ k := fun hh => hk (hh ▸ hj)
  have := isApplied_insert s k j s'.db s'.schema s'.log s'.script
  rw [← ha] at this
  rw [show s' = { db := s'.db, schema := s'.schema, log := s'.log, script := s'.script,
                  applied := s'.applied } from rfl, this]
  simp [hne]

/-- `up` attempts exactly the effects of the pending migrations, in order. -/
theorem upKeys_log (ks : List MigKey) (hn : ks.Nodup) (s : MigState) :
    (upKeys ks s).1 = (Spec.perform ((pend s ks).flatMap Spec.applying) s.script).2 ∧
    (upKeys ks s).2.log = s.log ++ (Spec.perform ((pend s ks).flatMap Spec.applying) s.script).1 := by
  induction ks generalizing s with
  | nil => exact ⟨rfl, by simp [upKeys, pend, Spec.perform]⟩
  | cons k ks ih =>
    rw [List.nodup_cons] at hn
    rw [upKeys, SM.bind_apply]
    by_cases h : Spec.isApplied s k = true
    · rw [upOne_skip h]
      have : pend s (k :: ks) = pend s ks := by unfold pend; rw [List.filter_cons_of_neg (by simp [h])]
      rw [this]
      exact ih hn.2 s
    · have h' : Spec.isApplied s k = false := by simpa using h
      have hp : pend s (k :: ks) = k :: pend s ks := by
        unfold pend; rw [List.filter_cons_of_pos (by simp [h'])]
      rw [hp, List.flatMap_cons]
      have he := upOne_end h'
      match hr : upOne k s with
      | (.ok (), s1) =>
        rw [hr] at he
        dsimp only at he ⊢
        cases he with
        | done h1 h2 h3 h4 h5 =>
          obtain ⟨i1, i2⟩ := ih hn.2 s1
          rw [pend_insert hn.1 h3] at i1 i2
          rw [h4, Spec.applying]
          simp only [List.cons_append, List.nil_append, perform_ok3]
          refine ⟨i1, ?_⟩
          rw [i2, h5]
          simp
      | (.err e, s1) =>
        rw [hr] at he
        dsimp only at he ⊢
        cases he with
        | stopped _ _ h2 =>
          obtain ⟨h3, h4⟩ := h2 ((pend s ks).flatMap Spec.applying)
          exact ⟨h4.symm, h3⟩
      | (.panic, s1) =>
        rw [hr] at he
        cases he

/-- `up`, when it succeeds. -/
theorem upKeys_ok (ks : List MigKey) (hn : ks.Nodup) (s s' : MigState) (h : upKeys ks s = (.ok (), s')) :
    s'.db = s.db ++ pend s ks ∧ s'.schema = s.schema ++ pend s ks ∧
    ∀ j, Spec.isApplied s' j = (Spec.isApplied s j || decide (j ∈ ks)) := by
  induction ks generalizing s with
  | nil => cases h; simp [pend]
  | cons k ks ih =>
    rw [List.nodup_cons] at hn
    rw [upKeys, SM.bind_apply] at h
    by_cases ha : Spec.isApplied s k = true
    · rw [upOne_skip ha] at h
      have hp : pend s (k :: ks) = pend s ks := by unfold pend; rw [List.filter_cons_of_neg (by simp [ha])]
      rw [hp]
      obtain ⟨h1, h2, h3⟩ := ih hn.2 s h
      refine ⟨h1, h2, fun j => ?_⟩
      rw [h3 j]
      by_cases hj : j = k
      · subst hj; simp [ha]
      · simp [hj]
    · have h' : Spec.isApplied s k = false := by simpa using ha
      have hp : pend s (k :: ks) = k :: pend s ks := by
        unfold pend; rw [List.filter_cons_of_pos (by simp [h'])]
      rw [hp]
      have he := upOne_end h'
      match hr : upOne k s with
      | (.ok (), s1) =>
        rw [hr] at he h
        dsimp only at he h
        cases he with
        | done h1 h2 h3 h4 h5 =>
          obtain ⟨i1, i2, i3⟩ := ih hn.2 s1 h
          rw [pend_insert hn.1 h3] at i1 i2
          refine ⟨by rw [i1, h1]; simp, by rw [i2, h2]; simp, fun j => ?_⟩
          rw [i3 j]
          have := isApplied_insert s k j s1.db s1.schema s1.log s1.script
          rw [← h3] at this
          rw [show s1 = { db := s1.db, schema := s1.schema, log := s1.log, script := s1.script,
                          applied := s1.applied } from rfl, this]
          by_cases hj : j = k <;> simp [hj]
      | (.err e, s1) => rw [hr] at h; cases h
      | (.panic, s1) => rw [hr] at h; cases h

/-! ### down -/

theorem swapRemove_split {α : Type} {l : List α} {i : Nat} {x : α} (h : l[i]? = some x) :
    ∃ l1 l2, l = l1 ++ x :: l2 ∧ (swapRemove l i).Perm (l1 ++ l2) := by
  induction l generalizing i with
  | nil => simp at h
  | cons a l ih =>
    cases i with
    | zero =>
      simp at h
      subst h
      refine ⟨[], l, rfl, ?_⟩
      rcases List.eq_nil_or_concat l with rfl | ⟨m, y, rfl⟩
      · exact List.Perm.refl _
      · rw [List.concat_eq_append]
        unfold swapRemove
        rw [← List.cons_append, List.getLast?_concat]
        simp only [List.cons_append, List.set_cons_zero, List.nil_append]
        rw [← List.cons_append, List.dropLast_concat]
        exact (List.perm_append_singleton y m).symm
    | succ i =>
      simp at h
      obtain ⟨l1, l2, h1, h2⟩ := ih h
      refine ⟨a :: l1, l2, by rw [h1]; rfl, ?_⟩
      have hs : swapRemove (a :: l) (i + 1) = a :: swapRemove l i := by
        rcases List.eq_nil_or_concat l with rfl | ⟨m, y, rfl⟩
        · simp at h
        · rw [List.concat_eq_append]
          unfold swapRemove
          rw [← List.cons_append, List.getLast?_concat, List.getLast?_concat]
          simp only [List.cons_append, List.set_cons_succ]
          have hne : (m ++ [y]).set i y ≠ [] := by
            intro hh
            have := congrArg List.length hh
            simp at this
          rw [List.dropLast_cons_of_ne_nil hne]
      rw [hs]
      exact h2.cons a

/-- no name twice in the migrator's view. -/
def Neat (s : MigState) : Prop := ∀ v, (s.applied v).Nodup

/-- the view without `k`. -/
def removed (a a' : Version → List Str) (k : MigKey) : Prop :=
  (∀ v, (a' v).Nodup) ∧ ∀ j : MigKey, j.2 ∈ a' j.1 ↔ j.2 ∈ a j.1 ∧ j ≠ k

theorem getApplied_some {a : Version → List Str} {k : MigKey} {i : Nat}
    (h : getApplied a k = some i) : (a k.1)[i]? = some k.2 := by
  unfold getApplied at h
  obtain ⟨hlt, h1, _⟩ := List.findIdx?_eq_some_iff_getElem.1 h
  rw [List.getElem?_eq_getElem hlt]
  simp at h1
  rw [h1]

theorem removed_swap {s : MigState} {k : MigKey} {i : Nat} (hn : Neat s)
    (h : getApplied s.applied k = some i) :
    removed s.applied (fun v => if v = k.1 then swapRemove (s.applied v) i else s.applied v) k := by
  obtain ⟨l1, l2, h1, h2⟩ := swapRemove_split (getApplied_some h)
  have hnk := hn k.1
  rw [h1] at hnk
  have hnk' : (l1 ++ l2).Nodup ∧ k.2 ∉ l1 ++ l2 := by
    have : (k.2 :: (l1 ++ l2)).Nodup := (List.perm_middle).nodup_iff.1 hnk
    rw [List.nodup_cons] at this
    exact ⟨this.2, this.1⟩
  refine ⟨fun v => ?_, fun j => ?_⟩
  · dsimp only
    split
    · rename_i hv
      rw [hv]
      exact h2.nodup_iff.2 hnk'.1
    · exact hn v
  · dsimp only
    by_cases hj : j.1 = k.1
    · rw [if_pos hj, hj, h2.mem_iff, h1]
      constructor
      · intro hm
        refine ⟨by simp at hm ⊢; rcases hm with hm | hm <;> simp [hm], fun hh => ?_⟩
        rw [hh] at hm
        exact hnk'.2 hm
      · rintro ⟨hm, hne⟩
        have hne2 : j.2 ≠ k.2 := fun hh => hne (Prod.ext hj hh)
        simp at hm ⊢
        rcases hm with hm | hm | hm
        · exact .inl hm
        · exact absurd hm hne2
        · exact .inr hm
    · rw [if_neg hj]
      constructor
      · intro hm
        exact ⟨hm, fun hh => hj (by rw [hh])⟩
      · exact fun hm => hm.1

theorem downOne_skip {s : MigState} {k : MigKey} (h : Spec.isApplied s k = false) :
    downOne k s = (.ok (), s) := by
  rw [downOne_def]
  rw [SM.get_bind_apply, getApplied_none.2 h]
  rfl

/-- the possible ends of an attempt to revert `k`. -/
inductive DownEnd (k : MigKey) (s s' : MigState) : Out MigErr Unit → Prop where
  | done : s'.db = s.db.filter (· ≠ k) → s'.schema = s.schema.filter (· ≠ k) →
      removed s.applied s'.applied k → s.script = .ok :: .ok :: .ok :: s'.script →
      s'.log = s.log ++ [(.down k, .ok), (.conn, .ok), (.delete k, .ok)] → DownEnd k s s' (.ok ())
  | stopped (e : MigErr) : (s'.db = s.db ∧ s'.schema = s.schema ∧ s'.applied = s.applied ∨
        s'.db = s.db ∧ s'.schema = s.schema.filter (· ≠ k) ∧ s'.applied = s.applied ∨
        s'.db = s.db ∧ s'.schema = s.schema.filter (· ≠ k) ∧ removed s.applied s'.applied k ∨
        s'.db = s.db.filter (· ≠ k) ∧ s'.schema = s.schema.filter (· ≠ k) ∧
          removed s.applied s'.applied k) →
      (∀ rest, s'.log = s.log ++ (Spec.perform (Spec.reverting k ++ rest) s.script).1 ∧
        (Spec.perform (Spec.reverting k ++ rest) s.script).2 = .err e) →
      DownEnd k s s' (.err e)

theorem downAt_end {s : MigState} {k : MigKey} {i : Nat} (hn : Neat s)
    (h : getApplied s.applied k = some i) : DownEnd k s (downAt k i s).2 (downAt k i s).1 := by
  have hr := removed_swap hn h
  clear h hn
  rw [downAt_def]
  obtain ⟨db, schema, log, script, applied⟩ := s
  dsimp only at hr
  match script with
  | [] => exact .stopped _ (.inl ⟨rfl, rfl, rfl⟩) fun rest => ⟨by simp [Spec.perform, Spec.reverting, effect, SM.bind_apply], rfl⟩
  | .err :: os => exact .stopped _ (.inl ⟨rfl, rfl, rfl⟩) fun rest => ⟨rfl, rfl⟩
  | .errDone :: os => exact .stopped _ (.inr (.inl ⟨rfl, rfl, rfl⟩)) fun rest => ⟨rfl, rfl⟩
  | .ok :: [] => exact .stopped _ (.inr (.inr (.inl ⟨rfl, rfl, hr⟩))) fun rest => ⟨rfl, rfl⟩
  | .ok :: .err :: os =>
    exact .stopped _ (.inr (.inr (.inl ⟨rfl, rfl, hr⟩))) fun rest =>
      ⟨by simp [Spec.perform, Spec.reverting, effect, SM.bind_apply, MigState.apply], rfl⟩
  | .ok :: .errDone :: os =>
    exact .stopped _ (.inr (.inr (.inl ⟨rfl, rfl, hr⟩))) fun rest =>
      ⟨by simp [Spec.perform, Spec.reverting, effect, SM.bind_apply, MigState.apply], rfl⟩
  | .ok :: .ok :: [] =>
    exact .stopped _ (.inr (.inr (.inl ⟨rfl, rfl, hr⟩))) fun rest =>
      ⟨by simp [Spec.perform, Spec.reverting, effect, SM.bind_apply, MigState.apply], rfl⟩
  | .ok :: .ok :: .err :: os =>
    exact .stopped _ (.inr (.inr (.inl ⟨rfl, rfl, hr⟩))) fun rest =>
      ⟨by simp [Spec.perform, Spec.reverting, effect, SM.bind_apply, MigState.apply], rfl⟩
  | .ok :: .ok :: .errDone :: os =>
    exact .stopped _ (.inr (.inr (.inr ⟨rfl, rfl, hr⟩))) fun rest =>
      ⟨by simp [Spec.perform, Spec.reverting, effect, SM.bind_apply, MigState.apply], rfl⟩
  | .ok :: .ok :: .ok :: os =>
    exact .done rfl rfl hr rfl (by simp [effect, SM.bind_apply, MigState.apply])

theorem downOne_end {s : MigState} {k : MigKey} (hn : Neat s) (h : Spec.isApplied s k = true) :
    DownEnd k s (downOne k s).2 (downOne k s).1 := by
  match hg : getApplied s.applied k with
  | none => rw [getApplied_none] at hg; rw [hg] at h; cases h
  | some i =>
    have := downAt_end hn hg
    rw [downOne_def]
    rw [SM.get_bind_apply, hg]
    exact this

/-- the migrations of `ks` to be reverted. -/
def live (s : MigState) (ks : List MigKey) : List MigKey := ks.filter fun k => Spec.isApplied s k

theorem isApplied_removed {s s' : MigState} {k : MigKey} (h : removed s.applied s'.applied k) (j : MigKey) :
    Spec.isApplied s' j = (Spec.isApplied s j && decide (j ≠ k)) := by
  have := h.2 j
  unfold Spec.isApplied
  by_cases h1 : j.2 ∈ s'.applied j.1 <;> by_cases h2 : j.2 ∈ s.applied j.1 <;> by_cases h3 : j = k <;>
    simp_all

theorem live_removed {s s' : MigState} {k : MigKey} {ks : List MigKey} (hk : k ∉ ks)
    (ha : removed s.applied s'.applied k) : live s' ks = live s ks := by
  unfold live
  refine List.filter_congr fun j hj => ?_
  have hne : j ≠ k := fun hh => hk (hh ▸ hj)
  rw [isApplied_removed ha]
  simp [hne]

theorem downKeys_log (ks : List MigKey) (hn : ks.Nodup) (s : MigState) (ht : Neat s) :
    (downKeys ks s).1 = (Spec.perform ((live s ks).flatMap Spec.reverting) s.script).2 ∧
    (downKeys ks s).2.log = s.log ++ (Spec.perform ((live s ks).flatMap Spec.reverting) s.script).1 := by
  induction ks generalizing s with
  | nil => exact ⟨rfl, by simp [downKeys, live, Spec.perform]⟩
  | cons k ks ih =>
    rw [List.nodup_cons] at hn
    rw [downKeys, SM.bind_apply]
    by_cases h : Spec.isApplied s k = true
    · have hp : live s (k :: ks) = k :: live s ks := by
        unfold live; rw [List.filter_cons_of_pos (by simp [h])]
      rw [hp, List.flatMap_cons]
      have he := downOne_end ht h
      match hr : downOne k s with
      | (.ok (), s1) =>
        rw [hr] at he
        dsimp only at he ⊢
        cases he with
        | done h1 h2 h3 h4 h5 =>
          obtain ⟨i1, i2⟩ := ih hn.2 s1 h3.1
          rw [live_removed hn.1 h3] at i1 i2
          rw [h4, Spec.reverting]
          simp only [List.cons_append, List.nil_append, perform_ok3]
          refine ⟨i1, ?_⟩
          rw [i2, h5]
          simp
      | (.err e, s1) =>
        rw [hr] at he
        dsimp only at he ⊢
        cases he with
        | stopped _ _ h2 =>
          obtain ⟨h3, h4⟩ := h2 ((live s ks).flatMap Spec.reverting)
          exact ⟨h4.symm, h3⟩
      | (.panic, s1) =>
        rw [hr] at he
        cases he
    · have h' : Spec.isApplied s k = false := by simpa using h
      rw [downOne_skip h']
      have : live s (k :: ks) = live s ks := by unfold live; rw [List.filter_cons_of_neg (by simp [h'])]
      rw [this]
      exact ih hn.2 s ht

theorem downKeys_ok (ks : List MigKey) (hn : ks.Nodup) (s s' : MigState) (ht : Neat s)
    (h : downKeys ks s = (.ok (), s')) :
    s'.db = s.db.filter (fun j => j ∉ live s ks) ∧ s'.schema = s.schema.filter (fun j => j ∉ live s ks) ∧
    Neat s' ∧ ∀ j, Spec.isApplied s' j = (Spec.isApplied s j && decide (j ∉ ks)) := by
  induction ks generalizing s with
  | nil =>
    cases h
    refine ⟨?_, ?_, ht, fun j => by simp⟩ <;> exact (List.filter_eq_self.2 fun _ _ => by simp [live]).symm
  | cons k ks ih =>
    rw [List.nodup_cons] at hn
    rw [downKeys, SM.bind_apply] at h
    by_cases ha : Spec.isApplied s k = true
    · have hp : live s (k :: ks) = k :: live s ks := by
        unfold live; rw [List.filter_cons_of_pos (by simp [ha])]
      rw [hp]
      have he := downOne_end ht ha
      match hr : downOne k s with
      | (.ok (), s1) =>
        rw [hr] at he h
        dsimp only at he h
        cases he with
        | done h1 h2 h3 h4 h5 =>
          obtain ⟨i1, i2, i3, i4⟩ := ih hn.2 s1 h3.1 h
          rw [live_removed hn.1 h3] at i1 i2
          refine ⟨?_, ?_, i3, fun j => ?_⟩
          · rw [i1, h1, List.filter_filter]
            refine List.filter_congr fun j _ => ?_
            by_cases hj : j = k <;> simp [hj]
          · rw [i2, h2, List.filter_filter]
            refine List.filter_congr fun j _ => ?_
            by_cases hj : j = k <;> simp [hj]
          · rw [i4 j, isApplied_removed h3]
            by_cases hj : j = k <;> simp [hj]
      | (.err e, s1) => rw [hr] at h; cases h
      | (.panic, s1) => rw [hr] at h; cases h
    · have h' : Spec.isApplied s k = false := by simpa using ha
      rw [downOne_skip h'] at h
      have hp : live s (k :: ks) = live s ks := by unfold live; rw [List.filter_cons_of_neg (by simp [h'])]
      rw [hp]
      obtain ⟨h1, h2, h3, h4⟩ := ih hn.2 s ht h
      refine ⟨h1, h2, h3, fun j => ?_⟩
      rw [h4 j]
      by_cases hj : j = k
      · subst hj; simp [h']
      · simp [hj]

theorem Neat.insert {s s' : MigState} {k : MigKey} (hn : Neat s) (h : Spec.isApplied s k = false)
    (ha : s'.applied = insertApplied s.applied k) : Neat s' := by
  intro v
  rw [ha]
  unfold insertApplied
  split
  · rename_i hv
    rw [List.nodup_append]
    refine ⟨hn v, by simp, fun a ha b hb hab => ?_⟩
    unfold Spec.isApplied at h
    simp at h hb
    rw [hab, hb, hv] at ha
    exact h ha
  · exact hn v

/-- the view stays without duplicates, whatever happens. -/
theorem upKeys_neat (ks : List MigKey) (s : MigState) (hn : Neat s) : Neat (upKeys ks s).2 := by
  induction ks generalizing s with
  | nil => exact hn
  | cons k ks ih =>
    rw [upKeys, SM.bind_apply]
    by_cases h : Spec.isApplied s k = true
    · rw [upOne_skip h]
      exact ih s hn
    · have h' : Spec.isApplied s k = false := by simpa using h
      have he := upOne_end h'
      match hr : upOne k s with
      | (.ok (), s1) =>
        rw [hr] at he
        cases he with
        | done h1 h2 h3 h4 h5 => exact ih s1 (hn.insert h' h3)
      | (.err e, s1) =>
        rw [hr] at he
        cases he with
        | stopped _ h1 _ =>
          show Neat s1
          rcases h1 with h1 | h1 | h1 | h1
          · exact fun v => by rw [h1.2.2]; exact hn v
          · exact fun v => by rw [h1.2.2]; exact hn v
          · exact hn.insert h' h1.2.2
          · exact hn.insert h' h1.2.2
      | (.panic, s1) => rw [hr] at he; cases he

theorem downKeys_neat (ks : List MigKey) (s : MigState) (hn : Neat s) : Neat (downKeys ks s).2 := by
  induction ks generalizing s with
  | nil => exact hn
  | cons k ks ih =>
    rw [downKeys, SM.bind_apply]
    by_cases h : Spec.isApplied s k = true
    · have he := downOne_end hn h
      match hr : downOne k s with
      | (.ok (), s1) =>
        rw [hr] at he
        cases he with
        | done h1 h2 h3 h4 h5 => exact ih s1 h3.1
      | (.err e, s1) =>
        rw [hr] at he
        cases he with
        | stopped _ h1 _ =>
          show Neat s1
          rcases h1 with h1 | h1 | h1 | h1
          · exact fun v => by rw [h1.2.2]; exact hn v
          · exact fun v => by rw [h1.2.2]; exact hn v
          · exact h1.2.2.1
          · exact h1.2.2.1
      | (.panic, s1) => rw [hr] at he; cases he
    · have h' : Spec.isApplied s k = false := by simpa using h
      rw [downOne_skip h']
      exact ih s hn

/-! ### crashes -/

/-- what may be in effect without a record: only the first migration still to be recorded. -/
structure UpLag (ks : List MigKey) (s : MigState) : Prop where
  sub : ∀ k ∈ s.db, k ∈ s.schema
  first : ∀ j ∈ s.schema, j ∉ s.db → (ks.filter fun k => k ∉ s.db).head? = some j

theorem upKeys_lag (ks : List MigKey) (s : MigState) (hs : Spec.inSync s) (hl : UpLag ks s) :
    UpLag ks (upKeys ks s).2 ∧ (∀ k ∈ s.db, k ∈ (upKeys ks s).2.db) ∧
    (∀ k ∈ (upKeys ks s).2.db, k ∈ s.db ∨ k ∈ ks) := by
  induction ks generalizing s with
  | nil => exact ⟨hl, fun k hk => hk, fun k hk => .inl hk⟩
  | cons k ks ih =>
    rw [upKeys, SM.bind_apply]
    by_cases h : Spec.isApplied s k = true
    · rw [upOne_skip h]
      dsimp only
      have hk : k ∈ s.db := (hs k).1 h
      have e : ∀ s' : MigState, k ∈ s'.db → ((k :: ks).filter fun k => k ∉ s'.db) = ks.filter fun k => k ∉ s'.db :=
        fun s' h' => List.filter_cons_of_neg (by simp [h'])
      obtain ⟨i1, i2, i3⟩ := ih s hs ⟨hl.sub, fun j h1 h2 => by rw [← e s hk]; exact hl.first j h1 h2⟩
      refine ⟨⟨i1.sub, fun j h1 h2 => by rw [e _ (i2 k hk)]; exact i1.first j h1 h2⟩, i2, fun j hj => ?_⟩
      exact (i3 j hj).imp_right (List.mem_cons_of_mem _)
    · have h' : Spec.isApplied s k = false := by simpa using h
      have hk : k ∉ s.db := fun hh => h ((hs k).2 hh)
      have e0 : ((k :: ks).filter fun k => k ∉ s.db) = k :: ks.filter fun k => k ∉ s.db :=
        List.filter_cons_of_pos (by simp [hk])
      have only : ∀ j ∈ s.schema, j ∉ s.db → j = k := by
        intro j h1 h2
        have := hl.first j h1 h2
        rw [e0] at this
        simpa using this.symm
      have he := upOne_end h'
      match hr : upOne k s with
      | (.ok (), s1) =>
        rw [hr] at he
        dsimp only at he ⊢
        cases he with
        | done h1 h2 h3 h4 h5 =>
          have hs1 : Spec.inSync s1 := by
            intro j
            have := isApplied_insert s k j s1.db s1.schema s1.log s1.script
            rw [← h3] at this
            rw [show s1 = { db := s1.db, schema := s1.schema, log := s1.log, script := s1.script,
                            applied := s1.applied } from rfl, this]
            simp only [h1, Bool.or_eq_true, decide_eq_true_eq, List.mem_append, List.mem_singleton]
            rw [hs j]
          have hl1 : UpLag ks s1 := by
            constructor
            · intro j hj
              rw [h1, List.mem_append, List.mem_singleton] at hj
              rw [h2, List.mem_append, List.mem_singleton]
              exact hj.imp_left (hl.sub j)
            · intro j hj hj'
              rw [h2, List.mem_append, List.mem_singleton] at hj
              rw [h1, List.mem_append, List.mem_singleton] at hj'
              rcases hj with hj | hj
              · exact absurd (.inr (only j hj fun hh => hj' (.inl hh))) hj'
              · exact absurd (.inr hj) hj'
          obtain ⟨i1, i2, i3⟩ := ih s1 hs1 hl1
          have hk1 : k ∈ (upKeys ks s1).2.db := i2 k (by rw [h1]; simp)
          refine ⟨⟨i1.sub, fun j a b => ?_⟩, fun j hj => i2 j (by rw [h1]; simp [hj]), fun j hj => ?_⟩
          · rw [List.filter_cons_of_neg (by simp [hk1])]
            exact i1.first j a b
          · rcases i3 j hj with hj | hj
            · rw [h1, List.mem_append, List.mem_singleton] at hj
              rcases hj with hj | hj
              · exact .inl hj
              · exact .inr (by simp [hj])
            · exact .inr (List.mem_cons_of_mem _ hj)
      | (.err e, s1) =>
        rw [hr] at he
        dsimp only at he ⊢
        cases he with
        | stopped _ h1 _ =>
          rcases h1 with ⟨h1, h2, _⟩ | ⟨h1, h2, _⟩ | ⟨h1, h2, _⟩ | ⟨h1, h2, _⟩
          · refine ⟨⟨by rw [h1, h2]; exact hl.sub, by rw [h1, h2]; exact hl.first⟩,
              by rw [h1]; exact fun _ h => h, by rw [h1]; exact fun _ h => .inl h⟩
          · refine ⟨⟨by rw [h1, h2]; exact fun j hj => List.mem_append_left _ (hl.sub j hj), ?_⟩,
              by rw [h1]; exact fun _ h => h, by rw [h1]; exact fun _ h => .inl h⟩
            rw [h1, h2]
            intro j hj hj'
            rw [List.mem_append, List.mem_singleton] at hj
            rcases hj with hj | hj
            · exact hl.first j hj hj'
            · rw [e0, hj]; rfl
          · refine ⟨⟨by rw [h1, h2]; exact fun j hj => List.mem_append_left _ (hl.sub j hj), ?_⟩,
              by rw [h1]; exact fun _ h => h, by rw [h1]; exact fun _ h => .inl h⟩
            rw [h1, h2]
            intro j hj hj'
            rw [List.mem_append, List.mem_singleton] at hj
            rcases hj with hj | hj
            · exact hl.first j hj hj'
            · rw [e0, hj]; rfl
          · refine ⟨⟨?_, ?_⟩, by rw [h1]; exact fun _ h => List.mem_append_left _ h, ?_⟩
            · rw [h1, h2]
              intro j hj
              rw [List.mem_append, List.mem_singleton] at hj ⊢
              exact hj.imp_left (hl.sub j)
            · rw [h1, h2]
              intro j hj hj'
              rw [List.mem_append, List.mem_singleton] at hj hj'
              rcases hj with hj | hj
              · exact absurd (.inr (only j hj fun hh => hj' (.inl hh))) hj'
              · exact absurd (.inr hj) hj'
            · rw [h1]
              intro j hj
              rw [List.mem_append, List.mem_singleton] at hj
              rcases hj with hj | hj
              · exact .inl hj
              · exact .inr (by simp [hj])
      | (.panic, s1) => rw [hr] at he; cases he

/-- what may be recorded without being in effect: only the first migration still to be removed. -/
structure DownLag (ks : List MigKey) (s : MigState) : Prop where
  sub : ∀ k ∈ s.schema, k ∈ s.db
  first : ∀ j ∈ s.db, j ∉ s.schema → (ks.filter fun k => k ∈ s.db).head? = some j

theorem downKeys_lag (ks : List MigKey) (s : MigState) (hn : Neat s) (hs : Spec.inSync s) (hl : DownLag ks s)
    (hnd : ks.Nodup) :
    DownLag ks (downKeys ks s).2 ∧ (∀ k ∈ (downKeys ks s).2.db, k ∈ s.db) ∧
    (∀ k ∈ s.db, k ∈ (downKeys ks s).2.db ∨ k ∈ ks) ∧ (s.db.Nodup → (downKeys ks s).2.db.Nodup) := by
  induction ks generalizing s with
  | nil => exact ⟨hl, fun k hk => hk, fun k hk => .inl hk, fun h => h⟩
  | cons k ks ih =>
    rw [List.nodup_cons] at hnd
    rw [downKeys, SM.bind_apply]
    by_cases h : Spec.isApplied s k = true
    · have hk : k ∈ s.db := (hs k).1 h
      have e0 : ((k :: ks).filter fun k => k ∈ s.db) = k :: ks.filter fun k => k ∈ s.db :=
        List.filter_cons_of_pos (by simp [hk])
      have only : ∀ j ∈ s.db, j ∉ s.schema → j = k := by
        intro j h1 h2
        have := hl.first j h1 h2
        rw [e0] at this
        simpa using this.symm
      have mem : ∀ (l : List MigKey) j, j ∈ l.filter (· ≠ k) ↔ j ∈ l ∧ j ≠ k := by
        intro l j; simp [List.mem_filter]
      have he := downOne_end hn h
      match hr : downOne k s with
      | (.ok (), s1) =>
        rw [hr] at he
        dsimp only at he ⊢
        cases he with
        | done h1 h2 h3 h4 h5 =>
          have hs1 : Spec.inSync s1 := by
            intro j
            rw [isApplied_removed h3, h1, mem]
            simp only [Bool.and_eq_true, decide_eq_true_eq]
            rw [hs j]
          have hl1 : DownLag ks s1 := by
            constructor
            · intro j hj
              rw [h2, mem] at hj
              rw [h1, mem]
              exact ⟨hl.sub j hj.1, hj.2⟩
            · intro j hj hj'
              rw [h1, mem] at hj
              rw [h2, mem] at hj'
              exact absurd (only j hj.1 fun hh => hj' ⟨hh, hj.2⟩) hj.2
          obtain ⟨i1, i2, i3, i4⟩ := ih s1 h3.1 hs1 hl1 hnd.2
          have hk1 : k ∉ (downKeys ks s1).2.db := by
            intro hh
            have := i2 k hh
            rw [h1, mem] at this
            exact this.2 rfl
          refine ⟨⟨i1.sub, fun j a b => ?_⟩, fun j hj => ?_, fun j hj => ?_, fun hd => ?_⟩
          · rw [List.filter_cons_of_neg (by simp [hk1])]
            exact i1.first j a b
          · have := i2 j hj
            rw [h1, mem] at this
            exact this.1
          · by_cases hjk : j = k
            · exact .inr (by simp [hjk])
            · exact (i3 j (by rw [h1, mem]; exact ⟨hj, hjk⟩)).imp_right (List.mem_cons_of_mem _)
          · exact i4 (by rw [h1]; exact hd.filter _)
      | (.err e, s1) =>
        rw [hr] at he
        dsimp only at he ⊢
        cases he with
        | stopped _ h1 _ =>
          have half : ∀ h1 : s1.db = s.db, ∀ h2 : s1.schema = s.schema.filter (· ≠ k),
              DownLag (k :: ks) s1 ∧ (∀ k ∈ s1.db, k ∈ s.db) ∧ (∀ j ∈ s.db, j ∈ s1.db ∨ j ∈ k :: ks) ∧
                (s.db.Nodup → s1.db.Nodup) := by
            intro h1 h2
            refine ⟨⟨?_, ?_⟩, by rw [h1]; exact fun _ h => h, by rw [h1]; exact fun _ h => .inl h,
              by rw [h1]; exact fun h => h⟩
            · rw [h1, h2]
              intro j hj
              rw [mem] at hj
              exact hl.sub j hj.1
            · rw [h1, h2]
              intro j hj hj'
              rw [mem] at hj'
              rw [e0]
              by_cases hjk : j = k
              · rw [hjk]; rfl
              · rw [only j hj fun hh => hj' ⟨hh, hjk⟩]; rfl
          rcases h1 with ⟨h1, h2, _⟩ | ⟨h1, h2, _⟩ | ⟨h1, h2, _⟩ | ⟨h1, h2, _⟩
          · refine ⟨⟨by rw [h1, h2]; exact hl.sub, by rw [h1, h2]; exact hl.first⟩,
              by rw [h1]; exact fun _ h => h, by rw [h1]; exact fun _ h => .inl h,
              by rw [h1]; exact fun h => h⟩
          · exact half h1 h2
          · exact half h1 h2
          · refine ⟨⟨?_, ?_⟩, ?_, ?_, by rw [h1]; exact fun h => h.filter _⟩
            · rw [h1, h2]
              intro j hj
              rw [mem] at hj ⊢
              exact ⟨hl.sub j hj.1, hj.2⟩
            · rw [h1, h2]
              intro j hj hj'
              rw [mem] at hj hj'
              exact absurd (only j hj.1 fun hh => hj' ⟨hh, hj.2⟩) hj.2
            · rw [h1]
              intro j hj
              rw [mem] at hj
              exact hj.1
            · rw [h1]
              intro j hj
              by_cases hjk : j = k
              · exact .inr (by simp [hjk])
              · exact .inl ((mem _ _).2 ⟨hj, hjk⟩)
      | (.panic, s1) => rw [hr] at he; cases he
    · have h' : Spec.isApplied s k = false := by simpa using h
      have hk : k ∉ s.db := fun hh => h ((hs k).2 hh)
      rw [downOne_skip h']
      dsimp only
      have e : ∀ s' : MigState, k ∉ s'.db → ((k :: ks).filter fun k => k ∈ s'.db) = ks.filter fun k => k ∈ s'.db :=
        fun s' h' => List.filter_cons_of_neg (by simp [h'])
      obtain ⟨i1, i2, i3, i4⟩ := ih s hn hs ⟨hl.sub, fun j h1 h2 => by rw [← e s hk]; exact hl.first j h1 h2⟩ hnd.2
      refine ⟨⟨i1.sub, fun j h1 h2 => ?_⟩, i2, fun j hj => (i3 j hj).imp_right (List.mem_cons_of_mem _), i4⟩
      rw [e _ fun hh => hk (i2 k hh)]
      exact i1.first j h1 h2

/-! ### `new` -/

theorem loadApplied_eq (ms : List MigList) (rows : List MigKey) (a b : Version → List Str)
    (h : loadApplied ms rows a = some b) (v : Version) :
    b v = a v ++ (rows.filter (·.1 = v)).map (·.2) := by
  induction rows generalizing a with
  | nil => cases h; simp
  | cons k ks ih =>
    rw [loadApplied] at h
    split at h
    · rw [ih _ h]
      unfold insertApplied
      by_cases hv : v = k.1
      · rw [if_pos hv, List.filter_cons_of_pos (by simp [hv])]
        simp
      · rw [if_neg hv, List.filter_cons_of_neg (by simp; exact fun hh => hv hh.symm)]
    · cases h

theorem migratorNew_mem {ms : List MigList} {rows : List MigKey} {a : Version → List Str}
    (h : migratorNew ms rows = some a) (k : MigKey) : k.2 ∈ a k.1 ↔ k ∈ rows := by
  rw [loadApplied_eq ms rows _ a h k.1]
  simp only [List.nil_append, List.mem_map, List.mem_filter, decide_eq_true_eq]
  constructor
  · rintro ⟨j, ⟨h1, h2⟩, h3⟩
    rw [show k = j from Prod.ext h2.symm h3.symm]
    exact h1
  · exact fun hk => ⟨k, ⟨hk, rfl⟩, rfl⟩

theorem migratorNew_neat {ms : List MigList} {rows : List MigKey} {a : Version → List Str}
    (h : migratorNew ms rows = some a) (hd : rows.Nodup) (v : Version) : (a v).Nodup := by
  rw [loadApplied_eq ms rows _ a h v, List.nil_append]
  unfold List.Nodup
  rw [List.pairwise_map]
  have := hd.filter (fun k : MigKey => decide (k.1 = v))
  refine List.Pairwise.imp_of_mem ?_ this
  intro x y hx hy hne hh
  have h1 := (List.mem_filter.1 hx).2
  have h2 := (List.mem_filter.1 hy).2
  simp at h1 h2
  exact hne (Prod.ext (h1.trans h2.symm) hh)

theorem loadApplied_some (ms : List MigList) (rows : List MigKey) (a : Version → List Str)
    (h : ∀ k ∈ rows, isKnown ms k = true) : ∃ b, loadApplied ms rows a = some b := by
  induction rows generalizing a with
  | nil => exact ⟨a, rfl⟩
  | cons k ks ih =>
    rw [loadApplied, if_pos (h k (List.mem_cons_self ..))]
    exact ih _ fun j hj => h j (List.mem_cons_of_mem _ hj)

theorem loadApplied_none (ms : List MigList) (rows : List MigKey) (a : Version → List Str)
    (h : ∃ k ∈ rows, isKnown ms k = false) : loadApplied ms rows a = none := by
  induction rows generalizing a with
  | nil => obtain ⟨k, hk, _⟩ := h; cases hk
  | cons k ks ih =>
    rw [loadApplied]
    by_cases hk : isKnown ms k = true
    · rw [if_pos hk]
      obtain ⟨j, hj, hj'⟩ := h
      rcases List.mem_cons.1 hj with rfl | hj
      · rw [hk] at hj'; cases hj'
      · exact ih _ ⟨j, hj, hj'⟩
    · rw [if_neg hk]

end Verif

import Verif.Proofs.MigTogether

/-!
# C101 — several programs migrate one database at the same time

There is no lock around migrating (src/migrator/migrator_inner.rs 17-68, 100-121): between reading the table
`migrations` and recording a migration, others may do the same.
-/

namespace Verif

open Spec (MigServer MigStore SqlError MigJob MigPhase MigEvent MigSystem recordedKeys eventsOf commandsOf)
open Spec.MigSystem (turn run started)

section
variable {W : Type} (S : MigServer W) (jobs : Nat → MigJob)

/-! ### the programs -/

/-- However the statements of the programs come one after the other: what the server does is what the schedule
says; every program sends its statements, and has, with the answers on its connection, the outcome it has
in the schedule.  (A program that has not ended is where the schedule says: `restOf`.) -/
theorem C101_run (hS : FairMig S) (hc : Collates S) (debug : Bool) (fp : FloatParse) (downSql : MigKey → Str)
    (hj : ∀ i, FairJob (jobs i)) (st : MigStore W) (hk : ∀ k ∈ st.table.getD [], k.2.length ≤ 255)
    (schedule : List Nat) :
    let x := run S jobs (started st) schedule
    ∃ cmds sent, S.talkEach st cmds = some (x.store, sent) ∧
      ∀ i (c : Conn) (r : List Rx), MigRest S c (rxOf (sent i) ++ r) →
        let m := migrateUp debug fp (jobs i).upSql downSql (jobs i).lists
        (x.phase i = .crashed → (m c).1 = .panic) ∧
        (x.phase i ≠ .crashed → ∃ q, m c = restOf S fp (jobs i) (x.phase i) { c with
            rx := r
            tx := c.tx ++ Spec.commands (commandsOf i cmds)
            seqId := q }) ∧
        (x.phase i = .done → (m c).1 = .ok ()) ∧
        (∀ e, x.phase i = .failed e → (m c).1 = .err (migRefusal S e)) := by
  intro x
  obtain ⟨cmds, sent, h1, h2⟩ := run_talk S jobs hS hc fp hj schedule (started st) ⟨hk, fun _ => trivial⟩
  refine ⟨cmds, sent, h1, fun i c r hrest => ?_⟩
  obtain ⟨h3, h4⟩ := h2 i c r hrest
  intro m
  have hm : m = restOf S fp (jobs i) .ask := migrateUp_eq S debug fp downSql (jobs i) (hj i).proper
  rw [hm]
  refine ⟨h3, h4, fun hd => ?_, fun e he => ?_⟩
  · obtain ⟨q, h5⟩ := h4 (by rw [hd]; exact fun h => by cases h)
    rw [hd] at h5
    exact congrArg Prod.fst h5
  · obtain ⟨q, h5⟩ := h4 (by rw [he]; exact fun h => by cases h)
    rw [he] at h5
    exact congrArg Prod.fst h5

/-! ### a turn -/

/-- what a turn can be. -/
theorem advance_cases (j : MigJob) (st : MigStore W) (p : MigPhase) :
    ((S.advance j st p).2.2 = [] ∧ (S.advance j st p).1.table.getD [] = st.table.getD []) ∨
    (∃ rows, p = .load ∧ st.table = some rows ∧ S.advance j st p = (st,
      if rows.all fun k => decide (k ∈ Spec.declared j.lists) then .todo (j.lacks rows) else .crashed, [.read rows])) ∨
    (∃ k ks w, p = .up k ks ∧ S.advance j st p = (⟨st.table, w⟩, .record k ks, [.took k])) ∨
    ∃ k ks rows rows', p = .record k ks ∧ st.table = some rows ∧
      S.inserted st.world rows k.1.major.toNat k.1.minor.toNat k.1.patch.toNat k.2 = .ok rows' ∧
      S.advance j st p = (⟨some rows', st.world⟩, .todo ks, [.recorded k]) := by
  cases p with
  | ask => exact .inl ⟨rfl, rfl⟩
  | create =>
    refine .inl ?_
    rw [Spec.MigServer.advance]
    cases h : st.table with
    | none => exact ⟨rfl, rfl⟩
    | some rows => exact ⟨rfl, by dsimp only; rw [h]⟩
  | load =>
    rw [Spec.MigServer.advance]
    cases h : st.table with
    | none => exact .inl ⟨rfl, by dsimp only; rw [h]⟩
    | some rows => exact .inr (.inl ⟨rows, rfl, rfl, rfl⟩)
  | up k ks =>
    rw [Spec.MigServer.advance]
    cases h : S.foreign st.world (j.upSql k) with
    | error e => exact .inl ⟨rfl, rfl⟩
    | ok w => exact .inr (.inr (.inl ⟨k, ks, w, rfl, rfl⟩))
  | record k ks =>
    rw [Spec.MigServer.advance]
    cases h : st.table with
    | none => exact .inl ⟨rfl, by dsimp only; rw [h]⟩
    | some rows =>
      dsimp only
      cases h' : S.inserted st.world rows k.1.major.toNat k.1.minor.toNat k.1.patch.toNat k.2 with
      | error e => exact .inl ⟨rfl, by dsimp only; rw [h]⟩
      | ok rows' => exact .inr (.inr (.inr ⟨k, ks, rows, rows', rfl, rfl, h', rfl⟩))
  | done => exact .inl ⟨rfl, rfl⟩
  | failed e => exact .inl ⟨rfl, rfl⟩
  | crashed => exact .inl ⟨rfl, rfl⟩

theorem recordedKeys_append (a b : List (Nat × MigEvent)) :
    recordedKeys (a ++ b) = recordedKeys a ++ recordedKeys b := List.filterMap_append ..

theorem mem_recordedKeys {log : List (Nat × MigEvent)} {k : MigKey} :
    k ∈ recordedKeys log ↔ ∃ i, (i, MigEvent.recorded k) ∈ log := by
  unfold recordedKeys
  rw [List.mem_filterMap]
  constructor
  · rintro ⟨⟨i, e⟩, h1, h2⟩
    cases e <;> cases h2
    exact ⟨i, h1⟩
  · rintro ⟨i, h⟩
    exact ⟨_, h, rfl⟩

theorem mem_eventsOf {log : List (Nat × MigEvent)} {i : Nat} {e : MigEvent} :
    e ∈ eventsOf i log ↔ (i, e) ∈ log := by
  unfold eventsOf
  rw [List.mem_filterMap]
  constructor
  · rintro ⟨⟨j, e'⟩, h1, h2⟩
    dsimp only at h2
    split at h2
    · rename_i hj
      cases h2
      rw [← hj]
      exact h1
    · cases h2
  · exact fun h => ⟨_, h, by simp⟩

theorem eventsOf_turn (x : MigSystem W) (n i : Nat) :
    eventsOf i (turn S jobs x n).log =
      eventsOf i x.log ++ if i = n then (S.advance (jobs n) x.store (x.phase n)).2.2 else [] := by
  simp only [turn, eventsOf, List.filterMap_append]
  congr 1
  rw [List.filterMap_map]
  split
  · rename_i h
    subst h
    rw [show ((fun x : Nat × MigEvent => if x.1 = i then some x.2 else none) ∘ fun e => (i, e)) = some from by
      funext e; simp]
    exact List.filterMap_some
  · rename_i h
    rw [List.filterMap_eq_nil_iff]
    intro e _
    simp [Ne.symm h]

theorem snoc_split {α : Type} {l e1 e2 : List α} {z a : α} (h : l ++ [z] = e1 ++ a :: e2) :
    (e1 = l ∧ a = z ∧ e2 = []) ∨ ∃ e, l = e1 ++ a :: e := by
  rcases List.eq_nil_or_concat e2 with rfl | ⟨e, b, rfl⟩
  · obtain ⟨h1, h2⟩ := List.append_inj' h rfl
    cases h2
    exact .inl ⟨h1.symm, rfl, rfl⟩
  · refine .inr ⟨e, ?_⟩
    have h' : l ++ [z] = (e1 ++ a :: e) ++ [b] := by rw [h]; simp
    exact (List.append_inj' h' rfl).1

/-! ### the table -/

/-- names fit into the column. -/
def ShortNames : Prop := ∀ i, ∀ k ∈ Spec.declared (jobs i).lists, k.2.length ≤ 255

/-- what holds all the time. -/
structure TableInv (rows0 : List MigKey) (x : MigSystem W) : Prop where
  ok : SystemOk jobs x
  rows : x.rows = rows0 ++ recordedKeys x.log
  sound : S.Sound rows0 → S.Sound x.rows
  read : ∀ e1 e2 i rows, x.log = e1 ++ (i, .read rows) :: e2 → rows = rows0 ++ recordedKeys e1
  took : ∀ e1 e2 i k, x.log = e1 ++ (i, .recorded k) :: e2 → (i, .took k) ∈ e1
  now : ∀ i k ks, x.phase i = .record k ks → (i, .took k) ∈ x.log

variable {S jobs}

theorem inserted_short {w : W} {rows rows' : List MigKey} {k : MigKey} (hk : k.2.length ≤ 255)
    (h : S.inserted w rows k.1.major.toNat k.1.minor.toNat k.1.patch.toNat k.2 = .ok rows') :
    rows' = rows ++ [k] ∧ ∀ j ∈ rows, S.clash j k = false := by
  obtain ⟨n, h1, h2, h3⟩ := inserted_ok S h
  have hn : n = k.2 := by
    rcases h1 with h1 | h1
    · exact h1.2
    · omega
  subst hn
  exact ⟨h2, h3⟩

/-- a phase `record` comes from the statement before it. -/
theorem turn_record {x : MigSystem W} {n i : Nat} {k : MigKey} {ks : List MigKey}
    (h : (turn S jobs x n).phase i = .record k ks) :
    x.phase i = .record k ks ∨ i = n ∧ x.phase n = .up k ks ∧ ((n, .took k) ∈ (turn S jobs x n).log) := by
  simp only [turn] at h ⊢
  split at h
  · rename_i e
    subst e
    rcases advance_cases S (jobs i) x.store (x.phase i) with h1 | ⟨rows, h1, h2, h3⟩ | ⟨k', ks', w, h1, h2⟩ |
      ⟨k', ks', rows, rows', h1, h2, h3, h4⟩
    · left
      cases hph : x.phase i with
      | ask => rw [hph] at h; simp only [Spec.MigServer.advance] at h; split at h <;> cases h
      | create => rw [hph, Spec.MigServer.advance] at h; cases hs : x.store.table <;> rw [hs] at h <;> cases h
      | load =>
        rw [hph, Spec.MigServer.advance] at h1 h
        cases hs : x.store.table with
        | none => rw [hs] at h; cases h
        | some rows => rw [hs] at h1; exact absurd h1.1 (by simp)
      | up k' ks' =>
        rw [hph, Spec.MigServer.advance] at h1 h
        cases hs : S.foreign x.store.world ((jobs i).upSql k') with
        | error e => rw [hs] at h; cases h
        | ok w => rw [hs] at h1; exact absurd h1.1 (by simp)
      | record k' ks' =>
        rw [hph, Spec.MigServer.advance] at h1 h
        cases hs : x.store.table with
        | none => rw [hs] at h; cases h
        | some rows =>
          rw [hs] at h1 h
          dsimp only at h1 h
          split at h
          · rename_i hi
            rw [hi] at h1
            exact absurd h1.1 (by simp)
          · cases h
      | done => rw [hph] at h; cases h
      | failed e => rw [hph] at h; cases h
      | crashed => rw [hph] at h; cases h
    · rw [h3] at h
      dsimp only at h
      split at h
      · unfold Spec.MigPhase.todo at h
        split at h <;> cases h
      · cases h
    · rw [h2] at h ⊢
      cases h
      exact .inr ⟨rfl, h1, by simp⟩
    · rw [h4] at h
      dsimp only at h
      unfold Spec.MigPhase.todo at h
      split at h <;> cases h
  · exact .inl h

theorem TableInv.turn (hc : Collates S) (hl : ShortNames jobs) {rows0 : List MigKey} {x : MigSystem W}
    (h : TableInv S jobs rows0 x) (n : Nat) : TableInv S jobs rows0 (turn S jobs x n) := by
  have hok := h.ok.turn hc n
  have hnow : ∀ i k ks, (Spec.MigSystem.turn S jobs x n).phase i = .record k ks →
      (i, .took k) ∈ (Spec.MigSystem.turn S jobs x n).log := by
    intro i k ks hi
    rcases turn_record hi with h1 | ⟨rfl, h1, h2⟩
    · exact List.mem_append_left _ (h.now i k ks h1)
    · exact h2
  have hrows := h.rows
  have hsound := h.sound
  have hpn := h.ok.phase n
  unfold Spec.MigSystem.rows at hrows hsound
  rcases advance_cases S (jobs n) x.store (x.phase n) with ⟨h1, h2⟩ | ⟨rows, h1, h2, h3⟩ | ⟨k, ks, w, h1, h2⟩ |
      ⟨k, ks, rows, rows', h1, h2, h3, h4⟩
  · have hlog : (Spec.MigSystem.turn S jobs x n).log = x.log := by
      simp only [Spec.MigSystem.turn, h1, List.map_nil, List.append_nil]
    have htab : (Spec.MigSystem.turn S jobs x n).rows = x.store.table.getD [] := h2
    refine ⟨hok, ?_, ?_, ?_, ?_, hnow⟩
    · rw [htab, hlog, hrows]
    · rw [htab]; exact hsound
    · rw [hlog]; exact h.read
    · rw [hlog]; exact h.took
  · have hlog : (Spec.MigSystem.turn S jobs x n).log = x.log ++ [(n, .read rows)] := by
      simp only [Spec.MigSystem.turn, h3, List.map_cons, List.map_nil]
    have htab : (Spec.MigSystem.turn S jobs x n).rows = x.store.table.getD [] := by
      simp only [Spec.MigSystem.rows, Spec.MigSystem.turn, h3]
    refine ⟨hok, ?_, ?_, ?_, ?_, hnow⟩
    · rw [htab, hlog, hrows, recordedKeys_append]
      simp [recordedKeys]
    · rw [htab]; exact hsound
    · rw [hlog]
      intro e1 e2 i rs he
      rcases snoc_split he with ⟨rfl, h5, rfl⟩ | ⟨e, he'⟩
      · cases h5
        rw [h2] at hrows
        exact hrows
      · exact h.read _ _ _ _ he'
    · rw [hlog]
      intro e1 e2 i k he
      rcases snoc_split he with ⟨rfl, h5, rfl⟩ | ⟨e, he'⟩
      · cases h5
      · exact h.took _ _ _ _ he'
  · have hlog : (Spec.MigSystem.turn S jobs x n).log = x.log ++ [(n, .took k)] := by
      simp only [Spec.MigSystem.turn, h2, List.map_cons, List.map_nil]
    have htab : (Spec.MigSystem.turn S jobs x n).rows = x.store.table.getD [] := by
      simp only [Spec.MigSystem.rows, Spec.MigSystem.turn, h2]
    refine ⟨hok, ?_, ?_, ?_, ?_, hnow⟩
    · rw [htab, hlog, hrows, recordedKeys_append]
      simp [recordedKeys]
    · rw [htab]; exact hsound
    · rw [hlog]
      intro e1 e2 i rs he
      rcases snoc_split he with ⟨rfl, h5, rfl⟩ | ⟨e, he'⟩
      · cases h5
      · exact h.read _ _ _ _ he'
    · rw [hlog]
      intro e1 e2 i k he
      rcases snoc_split he with ⟨rfl, h5, rfl⟩ | ⟨e, he'⟩
      · cases h5
      · exact h.took _ _ _ _ he'
  · rw [h1] at hpn
    have hkl := hl n k (hpn k (List.mem_cons_self ..))
    obtain ⟨rfl, hcl⟩ := inserted_short hkl h3
    rw [h2] at hrows hsound
    simp only [Option.getD_some] at hrows hsound
    have hlog : (Spec.MigSystem.turn S jobs x n).log = x.log ++ [(n, .recorded k)] := by
      simp only [Spec.MigSystem.turn, h4, List.map_cons, List.map_nil]
    have htab : (Spec.MigSystem.turn S jobs x n).rows = rows ++ [k] := by
      simp only [Spec.MigSystem.rows, Spec.MigSystem.turn, h4, Option.getD_some]
    refine ⟨hok, ?_, ?_, ?_, ?_, hnow⟩
    · rw [htab, hlog, hrows, recordedKeys_append, List.append_assoc]
      simp [recordedKeys]
    · rw [htab]
      intro h0
      obtain ⟨s1, s2⟩ := hsound h0
      refine ⟨?_, fun j hj => ?_⟩
      · rw [List.pairwise_append]
        refine ⟨s1, List.pairwise_singleton _ _, fun a ha b hb => ?_⟩
        rw [List.mem_singleton] at hb
        rw [hb]
        exact hcl a ha
      · rcases List.mem_append.1 hj with hj | hj
        · exact s2 j hj
        · rw [List.mem_singleton] at hj
          rw [hj]
          exact hkl
    · rw [hlog]
      intro e1 e2 i rs he
      rcases snoc_split he with ⟨rfl, h5, rfl⟩ | ⟨e, he'⟩
      · cases h5
      · exact h.read _ _ _ _ he'
    · rw [hlog]
      intro e1 e2 i k' he
      rcases snoc_split he with ⟨rfl, h5, rfl⟩ | ⟨e, he'⟩
      · cases h5
        exact h.now _ _ _ h1
      · exact h.took _ _ _ _ he'

theorem tableInv (hc : Collates S) (hl : ShortNames jobs) (st : MigStore W)
    (hk : ∀ k ∈ st.table.getD [], k.2.length ≤ 255) (schedule : List Nat) :
    TableInv S jobs (st.table.getD []) (run S jobs (started st) schedule) := by
  refine run_always S jobs ?_ (fun y i hy => hy.turn hc hl i) schedule
  refine ⟨⟨hk, fun _ => trivial⟩, ?_, fun h => h, ?_, ?_, ?_⟩
  · simp [started, Spec.MigSystem.rows, recordedKeys]
  · intro e1 e2 i rows h
    simp [started] at h
  · intro e1 e2 i rows h
    simp [started] at h
  · intro i k ks h
    cases h

/-! ### what a program does -/

/-- these migrations, each with its record. -/
def pairsOf (ks : List MigKey) : List MigEvent := ks.flatMap fun k => [.took k, .recorded k]

/-- what a program has done when it is there. -/
def Traced (j : MigJob) : MigPhase → List MigEvent → Prop
  | .ask, es => es = []
  | .create, es => es = []
  | .load, es => es = []
  | .up k ks, es => ∃ rows pre, (∀ k ∈ rows, k ∈ Spec.declared j.lists) ∧ j.lacks rows = pre ++ k :: ks ∧
      es = .read rows :: pairsOf pre
  | .record k ks, es => ∃ rows pre, (∀ k ∈ rows, k ∈ Spec.declared j.lists) ∧ j.lacks rows = pre ++ k :: ks ∧
      es = .read rows :: (pairsOf pre ++ [.took k])
  | .done, es => ∃ rows, (∀ k ∈ rows, k ∈ Spec.declared j.lists) ∧ es = .read rows :: pairsOf (j.lacks rows)
  | .failed _, es => es = [] ∨ ∃ rows pre k ks, j.lacks rows = pre ++ k :: ks ∧
      (es = .read rows :: pairsOf pre ∨ es = .read rows :: (pairsOf pre ++ [.took k]))
  | .crashed, es => ∃ rows, (∃ k ∈ rows, k ∉ Spec.declared j.lists) ∧ es = [.read rows]

theorem pairsOf_snoc (ks : List MigKey) (k : MigKey) : pairsOf (ks ++ [k]) = pairsOf ks ++ [.took k, .recorded k] := by
  simp [pairsOf]

theorem mem_pairsOf {ks : List MigKey} {k : MigKey} :
    (MigEvent.took k ∈ pairsOf ks ↔ k ∈ ks) ∧ (MigEvent.recorded k ∈ pairsOf ks ↔ k ∈ ks) ∧
      ∀ rows, MigEvent.read rows ∉ pairsOf ks := by
  simp [pairsOf]

theorem traced_todo {j : MigJob} {rows pre ks : List MigKey} (hd : ∀ k ∈ rows, k ∈ Spec.declared j.lists)
    (h : j.lacks rows = pre ++ ks) : Traced j (.todo ks) (.read rows :: pairsOf pre) := by
  cases ks with
  | nil =>
    rw [List.append_nil] at h
    exact ⟨rows, hd, by rw [h]⟩
  | cons k ks => exact ⟨rows, pre, hd, h, rfl⟩

theorem traced_advance (j : MigJob) (st : MigStore W) (p : MigPhase) (es : List MigEvent) (h : Traced j p es) :
    Traced j (S.advance j st p).2.1 (es ++ (S.advance j st p).2.2) := by
  cases p with
  | ask =>
    cases h
    simp only [Spec.MigServer.advance]
    split <;> rfl
  | create =>
    cases h
    rw [Spec.MigServer.advance]
    cases st.table with
    | none => rfl
    | some _ => exact .inl rfl
  | load =>
    cases h
    rw [Spec.MigServer.advance]
    cases st.table with
    | none => exact .inl rfl
    | some rows =>
      dsimp only
      rw [List.nil_append]
      split
      · rename_i hall
        rw [List.all_eq_true] at hall
        exact traced_todo (pre := []) (fun k hk => of_decide_eq_true (hall k hk)) rfl
      · rename_i hall
        rw [List.all_eq_true] at hall
        push Not at hall
        obtain ⟨k, hk1, hk2⟩ := hall
        exact ⟨rows, ⟨k, hk1, by simpa using hk2⟩, rfl⟩
  | up k ks =>
    obtain ⟨rows, pre, h1, h2, rfl⟩ := h
    rw [Spec.MigServer.advance]
    cases S.foreign st.world (j.upSql k) with
    | ok w => exact ⟨rows, pre, h1, h2, rfl⟩
    | error e => exact .inr ⟨rows, pre, k, ks, h2, .inl (List.append_nil _)⟩
  | record k ks =>
    obtain ⟨rows, pre, h1, h2, rfl⟩ := h
    rw [Spec.MigServer.advance]
    cases st.table with
    | none => exact .inr ⟨rows, pre, k, ks, h2, .inr (List.append_nil _)⟩
    | some rows' =>
      dsimp only
      cases S.inserted st.world rows' k.1.major.toNat k.1.minor.toNat k.1.patch.toNat k.2 with
      | error e => exact .inr ⟨rows, pre, k, ks, h2, .inr (List.append_nil _)⟩
      | ok rows'' =>
        have h3 : j.lacks rows = (pre ++ [k]) ++ ks := by rw [h2]; simp
        have := traced_todo h1 h3
        rw [pairsOf_snoc] at this
        simpa using this
  | done => simpa [Spec.MigServer.advance] using h
  | failed e => simpa [Spec.MigServer.advance] using h
  | crashed => simpa [Spec.MigServer.advance] using h

/-- What a program does, as seen from the database: nothing; or it reads the table, once, and of the migrations
that are not in it, in the order they are declared, each takes effect and is recorded; all of them if it
ends without error. -/
theorem C101_trace (st : MigStore W) (schedule : List Nat) (i : Nat) :
    let x := run S jobs (started st) schedule
    Traced (jobs i) (x.phase i) (eventsOf i x.log) := by
  refine run_always S jobs (P := fun x => Traced (jobs i) (x.phase i) (eventsOf i x.log)) ?_ (fun y n hy => ?_) schedule
  · show eventsOf i [] = []
    rfl
  · rw [eventsOf_turn]
    simp only [turn]
    split
    · rename_i e
      subst e
      exact traced_advance _ _ _ _ hy
    · rw [List.append_nil]
      exact hy

/-- the table was read once, and what took effect was not in it. -/
theorem traced_took {j : MigJob} {p : MigPhase} {es : List MigEvent} (h : Traced j p es) {k : MigKey}
    (hk : .took k ∈ es) : ∃ rows, .read rows ∈ es ∧ (∀ rows', .read rows' ∈ es → rows' = rows) ∧
      k ∈ Spec.declared j.lists ∧ k ∉ rows := by
  have key : ∀ rows ks, (∀ k ∈ ks, k ∈ j.lacks rows) → ∀ es, es = .read rows :: pairsOf ks ∨
      (∃ k', k' ∈ j.lacks rows ∧ es = .read rows :: (pairsOf ks ++ [.took k'])) → .took k ∈ es →
      ∃ rows, .read rows ∈ es ∧ (∀ rows', .read rows' ∈ es → rows' = rows) ∧
      k ∈ Spec.declared j.lists ∧ k ∉ rows := by
    intro rows ks hks es hes hk
    have hm : k ∈ j.lacks rows := by
      rcases hes with rfl | ⟨k', hk', rfl⟩
      · simp only [List.mem_cons, reduceCtorEq, false_or, mem_pairsOf.1] at hk
        exact hks k hk
      · simp only [List.mem_cons, List.mem_append, List.not_mem_nil, or_false, reduceCtorEq, false_or, mem_pairsOf.1] at hk
        rcases hk with hk | hk
        · exact hks k hk
        · cases hk
          exact hk'
    unfold Spec.MigJob.lacks at hm
    rw [List.mem_filter, decide_eq_true_iff] at hm
    refine ⟨rows, ?_, ?_, hm.1, hm.2⟩
    · rcases hes with rfl | ⟨k', hk', rfl⟩ <;> simp
    · intro rows' hr
      have hno := (mem_pairsOf (ks := ks) (k := k)).2.2 rows'
      rcases hes with rfl | ⟨k', hk', rfl⟩
      · simpa [hno] using hr
      · simpa [hno] using hr
  cases p with
  | ask => cases h; cases hk
  | create => cases h; cases hk
  | load => cases h; cases hk
  | up k' ks =>
    obtain ⟨rows, pre, h1, h2, h3⟩ := h
    exact key rows pre (fun a ha => h2 ▸ List.mem_append_left _ ha) es (.inl h3) hk
  | record k' ks =>
    obtain ⟨rows, pre, h1, h2, h3⟩ := h
    exact key rows pre (fun a ha => h2 ▸ List.mem_append_left _ ha) es (.inr ⟨k', by rw [h2]; simp, h3⟩) hk
  | done =>
    obtain ⟨rows, h1, h3⟩ := h
    exact key rows _ (fun a ha => ha) es (.inl h3) hk
  | failed e =>
    rcases h with h | ⟨rows, pre, k', ks, h2, h3⟩
    · cases h; cases hk
    · refine key rows pre (fun a ha => h2 ▸ List.mem_append_left _ ha) es ?_ hk
      rcases h3 with h3 | h3
      · exact .inl h3
      · exact .inr ⟨k', by rw [h2]; simp, h3⟩
  | crashed =>
    obtain ⟨rows, h1, rfl⟩ := h
    simp at hk

/-! ### what holds, however they come one after the other -/

section
variable (hc : Collates S) (hl : ShortNames jobs) (st : MigStore W)
  (hk : ∀ k ∈ st.table.getD [], k.2.length ≤ 255) (schedule : List Nat)
include hc hl hk

/-- Rows are only added, one for every record; the table stays one that the unique index admits. -/
theorem C101_table :
    let x := run S jobs (started st) schedule
    x.rows = st.table.getD [] ++ recordedKeys x.log ∧ (S.Sound (st.table.getD []) → S.Sound x.rows) :=
  have h := tableInv hc hl st hk schedule
  ⟨h.rows, h.sound⟩

/-- Whatever is recorded has taken effect before, in the program that recorded it. -/
theorem C101_recorded (e1 e2 : List (Nat × MigEvent)) (i : Nat) (k : MigKey)
    (h : (run S jobs (started st) schedule).log = e1 ++ (i, .recorded k) :: e2) : (i, .took k) ∈ e1 :=
  (tableInv hc hl st hk schedule).took e1 e2 i k h

/-- A program that ends without error finds all its migrations recorded. -/
theorem C101_complete (i : Nat) (h : (run S jobs (started st) schedule).phase i = .done) :
    ∀ k ∈ Spec.declared (jobs i).lists, k ∈ (run S jobs (started st) schedule).rows := by
  have hT := C101_trace (S := S) (jobs := jobs) st schedule i
  have hI := tableInv hc hl st hk schedule
  dsimp only at hT
  rw [h] at hT
  obtain ⟨rows, -, hT⟩ := hT
  intro k hkd
  rw [hI.rows, List.mem_append]
  by_cases hkr : k ∈ rows
  · have hmem : (i, MigEvent.read rows) ∈ (run S jobs (started st) schedule).log := by
      rw [← mem_eventsOf, hT]
      simp
    obtain ⟨e1, e2, he⟩ := List.append_of_mem hmem
    rw [hI.read e1 e2 i rows he, List.mem_append] at hkr
    rcases hkr with hkr | hkr
    · exact .inl hkr
    · rw [he, recordedKeys_append]
      exact .inr (List.mem_append_left _ hkr)
  · refine .inr (mem_recordedKeys.2 ⟨i, ?_⟩)
    rw [← mem_eventsOf, hT]
    refine List.mem_cons_of_mem _ (mem_pairsOf.2.1.2 ?_)
    unfold Spec.MigJob.lacks
    rw [List.mem_filter, decide_eq_true_iff]
    exact ⟨hkd, hkr⟩

/-- A migration is recorded by one program at most; so of several in which it takes effect, one at most
ends without error. -/
theorem C101_one (h0 : S.Sound (st.table.getD [])) (i j : Nat) (k : MigKey) :
    let x := run S jobs (started st) schedule
    ((i, .recorded k) ∈ x.log → (j, .recorded k) ∈ x.log → i = j) ∧
    ((i, .took k) ∈ x.log → (j, .took k) ∈ x.log → x.phase i = .done → x.phase j = .done → i = j) := by
  intro x
  have hI := tableInv hc hl st hk schedule
  have hsound := (hI.sound h0).1
  rw [hI.rows, List.pairwise_append] at hsound
  have hpw := hsound.2.1
  have h1 : (i, .recorded k) ∈ x.log → (j, .recorded k) ∈ x.log → i = j := by
    intro hi hj
    by_contra hne
    have hkk : S.clash k k = true := by
      unfold Spec.MigServer.clash
      rw [hc.refl]
      simp
    obtain ⟨e1, e2, he⟩ := List.append_of_mem hi
    have hpw' : (recordedKeys x.log).Pairwise fun j k => S.clash j k = false := hpw
    rw [he, recordedKeys_append, List.pairwise_append] at hpw'
    have hcons : recordedKeys ((i, MigEvent.recorded k) :: e2) = k :: recordedKeys e2 := rfl
    rw [hcons, List.pairwise_cons] at hpw'
    rw [he] at hj
    rcases List.mem_append.1 hj with hj | hj
    · have := hpw'.2.2 k (mem_recordedKeys.2 ⟨j, hj⟩) k (List.mem_cons_self ..)
      rw [hkk] at this
      cases this
    · rcases List.mem_cons.1 hj with hj | hj
      · cases hj
        exact hne rfl
      · have := hpw'.2.1.1 k (mem_recordedKeys.2 ⟨j, hj⟩)
        rw [hkk] at this
        cases this
  have hrec : ∀ n, (n, .took k) ∈ x.log → x.phase n = .done → (n, .recorded k) ∈ x.log := by
    intro n hn hd
    have hT := C101_trace (S := S) (jobs := jobs) st schedule n
    dsimp only at hT
    have hd' : (run S jobs (started st) schedule).phase n = .done := hd
    rw [hd'] at hT
    obtain ⟨rows, -, hT⟩ := hT
    rw [← mem_eventsOf] at hn ⊢
    have hT' : eventsOf n x.log = _ := hT
    rw [hT'] at hn ⊢
    simp only [List.mem_cons, reduceCtorEq, false_or, mem_pairsOf.1, mem_pairsOf.2.1] at hn ⊢
    exact hn
  exact ⟨h1, fun hi hj di dj => h1 (hrec i hi di) (hrec j hj dj)⟩

/-- A program that reads the table after a migration was recorded does not execute it: a migration can take
effect more than once only in programs that read the table before it was recorded.
Missing: such programs (`C101_twice_violated`). -/
theorem C101_once_partial (e1 e2 : List (Nat × MigEvent)) (i j : Nat) (k : MigKey) (rows : List MigKey)
    (h : (run S jobs (started st) schedule).log = e1 ++ (j, .read rows) :: e2)
    (hr : k ∈ st.table.getD [] ∨ (i, .recorded k) ∈ e1) :
    (j, .took k) ∉ (run S jobs (started st) schedule).log := by
  intro ht
  have hT := C101_trace (S := S) (jobs := jobs) st schedule j
  dsimp only at hT
  obtain ⟨rows', h1, h2, h3, h4⟩ := traced_took hT (mem_eventsOf.2 ht)
  have hread : (j, MigEvent.read rows) ∈ (run S jobs (started st) schedule).log := by
    rw [h]
    simp
  have := h2 rows (mem_eventsOf.2 hread)
  subst this
  refine h4 ?_
  rw [(tableInv hc hl st hk schedule).read e1 e2 j rows h, List.mem_append]
  rcases hr with hr | hr
  · exact .inl hr
  · exact .inr (mem_recordedKeys.2 ⟨i, hr⟩)

end

/-! ### every program ends -/

/-- how many statements are left, at most. -/
def turnsLeft (j : MigJob) : MigPhase → Nat
  | .ask => 3 + 2 * (Spec.declared j.lists).length
  | .create => 2 + 2 * (Spec.declared j.lists).length
  | .load => 1 + 2 * (Spec.declared j.lists).length
  | .up _ ks => 2 + 2 * ks.length
  | .record _ ks => 1 + 2 * ks.length
  | _ => 0

theorem turnsLeft_todo (j : MigJob) (ks : List MigKey) : turnsLeft j (.todo ks) = 2 * ks.length := by
  cases ks with
  | nil => rfl
  | cons k ks =>
    simp only [Spec.MigPhase.todo, turnsLeft, List.length_cons]
    omega

theorem turnsLeft_advance (j : MigJob) (st : MigStore W) (p : MigPhase) :
    turnsLeft j (S.advance j st p).2.1 ≤ turnsLeft j p - 1 := by
  cases p with
  | ask =>
    simp only [Spec.MigServer.advance]
    split <;> simp only [turnsLeft] <;> omega
  | create =>
    rw [Spec.MigServer.advance]
    cases st.table <;> simp only [turnsLeft] <;> omega
  | load =>
    rw [Spec.MigServer.advance]
    cases st.table with
    | none => simp only [turnsLeft]; omega
    | some rows =>
      dsimp only
      split
      · rw [turnsLeft_todo, turnsLeft]
        have := List.length_filter_le (fun k => decide (k ∉ rows)) (Spec.declared j.lists)
        unfold Spec.MigJob.lacks
        omega
      · simp only [turnsLeft]; omega
  | up k ks =>
    rw [Spec.MigServer.advance]
    cases S.foreign st.world (j.upSql k) <;> simp only [turnsLeft] <;> omega
  | record k ks =>
    rw [Spec.MigServer.advance]
    cases st.table with
    | none => simp only [turnsLeft]; omega
    | some rows =>
      dsimp only
      cases S.inserted st.world rows k.1.major.toNat k.1.minor.toNat k.1.patch.toNat k.2 with
      | ok rows' => rw [turnsLeft_todo, turnsLeft]; omega
      | error e => simp only [turnsLeft]; omega
  | done => exact Nat.zero_le _
  | failed e => exact Nat.zero_le _
  | crashed => exact Nat.zero_le _

/-- A program executes three statements and two per migration, at most, whatever the others do: they do not
keep it from ending. -/
theorem C101_ends (st : MigStore W) (schedule : List Nat) (i : Nat)
    (h : 3 + 2 * (Spec.declared (jobs i).lists).length ≤ schedule.count i) :
    ((run S jobs (started st) schedule).phase i).ended = true := by
  have key : ∀ (sched : List Nat) (x : MigSystem W),
      turnsLeft (jobs i) ((run S jobs x sched).phase i) ≤ turnsLeft (jobs i) (x.phase i) - sched.count i := by
    intro sched
    induction sched with
    | nil => intro x; exact Nat.le_refl _
    | cons n is ih =>
      intro x
      rw [run_cons]
      refine (ih _).trans ?_
      simp only [turn]
      by_cases hn : n = i
      · subst hn
        rw [if_pos rfl, List.count_cons_self]
        have := turnsLeft_advance (S := S) (jobs n) x.store (x.phase n)
        omega
      · rw [if_neg (Ne.symm hn), List.count_cons_of_ne hn]
  have := key schedule (started st)
  have h0 : turnsLeft (jobs i) ((started st).phase i) = 3 + 2 * (Spec.declared (jobs i).lists).length := rfl
  rw [h0] at this
  have hz : turnsLeft (jobs i) ((run S jobs (started st) schedule).phase i) = 0 := by omega
  cases hp : (run S jobs (started st) schedule).phase i <;> rw [hp] at hz <;> simp [turnsLeft] at hz <;> rfl

end

end Verif

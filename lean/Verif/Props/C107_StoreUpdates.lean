import Verif.Props.C107_StoreFound

/-!
# C107, continued — updates at the same time: every column has what was last given for it
-/

namespace Verif

open Spec (SqlServer SqlState Tables Row Field Rec StoreJob StoreEvent StoreSystem eventsBy)
open Spec.SqlServer (meanings withRow Happens given)

/-- what these events give last for a column of the row `r` of table `t`. -/
def lastGiven (S : SqlServer) (t : Str) (r : Rec) (c : Str) : List (Nat × StoreEvent) → Option Spec.Datum
  | [] => none
  | (_, .row _) :: h => lastGiven S t r c h
  | (_, .change t' key id fs) :: h =>
    match lastGiven S t r c h with
    | some d => some d
    | none => if t' = t ∧ S.eq (r key) (Spec.meaning id) = true then given (meanings fs) c else none

/-- the columns by which rows of `t` are found are not assigned. -/
def KeysFixed (t : Str) (h : List (Nat × StoreEvent)) : Prop :=
  ∀ i key id fs, (i, StoreEvent.change t key id fs) ∈ h →
    ∀ i' key' id' fs', (i', StoreEvent.change t key' id' fs') ∈ h → key ∉ fs'.map (·.1)

theorem KeysFixed.tail {t : Str} {e : Nat × StoreEvent} {h : List (Nat × StoreEvent)} (hk : KeysFixed t (e :: h)) :
    KeysFixed t h := fun i key id fs hm i' key' id' fs' hm' =>
  hk i key id fs (List.mem_cons_of_mem _ hm) i' key' id' fs' (List.mem_cons_of_mem _ hm')

theorem lastGiven_same {S : SqlServer} {t : Str} {r r1 : Rec} {c : Str} {h : List (Nat × StoreEvent)}
    (hk : ∀ i key id fs, (i, StoreEvent.change t key id fs) ∈ h → r1 key = r key) :
    lastGiven S t r1 c h = lastGiven S t r c h := by
  induction h with
  | nil => rfl
  | cons e h ih =>
    have ih := ih fun i key id fs hm => hk i key id fs (List.mem_cons_of_mem _ hm)
    match e with
    | (_, .row _) => exact ih
    | (i, .change t' key id fs) =>
      rw [lastGiven, lastGiven, ih]
      by_cases ht : t' = t
      · subst ht
        rw [hk i key id fs (List.mem_cons_self ..)]
      · simp [ht]

/-- Rows stay where they are, and a column of a row has what was last given for it by a program, or what it had. -/
theorem C107_columns (S : SqlServer) {rows rows' : Tables} {h : List (Nat × StoreEvent)} (hh : Happens S rows h rows')
    (t : Str) (hk : KeysFixed t h) (n : Nat) (r : Rec) (hr : (rows t)[n]? = some r) :
    ∃ r', (rows' t)[n]? = some r' ∧ ∀ c, r' c = (lastGiven S t r c h).getD (r c) := by
  induction hh generalizing r with
  | nil => exact ⟨r, hr, fun c => rfl⟩
  | @row rows i row h rows' _ _ _ ih =>
    refine ih hk.tail r ?_
    unfold withRow
    by_cases ht : t = row.table
    · rw [if_pos ht, ← ht, List.getElem?_append_left (List.getElem?_eq_some_iff.1 hr).1]
      exact hr
    · rw [if_neg ht]
      exact hr
  | @change rows i t' key id fs h rows' _ _ ih =>
    by_cases ht : t' = t
    · subst ht
      obtain ⟨r', h1, h2⟩ := ih hk.tail (if S.eq (r key) (Spec.meaning id) then Spec.SqlServer.assign (meanings fs) r else r)
        (by
          unfold Spec.SqlServer.updated
          rw [if_pos rfl, List.getElem?_map, hr]
          rfl)
      refine ⟨r', h1, fun c => ?_⟩
      rw [h2 c, lastGiven, lastGiven_same (r := r)]
      · cases lastGiven S t' r c h with
        | some d => rfl
        | none =>
          by_cases he : S.eq (r key) (Spec.meaning id) = true
          · rw [if_pos he]
            dsimp only
            rw [if_pos ⟨rfl, he⟩]
            rfl
          · rw [if_neg he]
            dsimp only
            rw [if_neg fun h => he h.2]
      · intro i' key' id' fs' hm
        by_cases he : S.eq (r key) (Spec.meaning id) = true
        · rw [if_pos he]
          unfold Spec.SqlServer.assign
          rw [given_none (hk i' key' id' fs' (List.mem_cons_of_mem _ hm) i key id fs (List.mem_cons_self ..))]
          rfl
        · rw [if_neg he]
    · obtain ⟨r', h1, h2⟩ := ih hk.tail r (by
        unfold Spec.SqlServer.updated
        rw [if_neg (Ne.symm ht)]
        exact hr)
      refine ⟨r', h1, fun c => ?_⟩
      rw [h2 c, lastGiven]
      cases lastGiven S t r c h with
      | some d => rfl
      | none =>
        dsimp only
        rw [if_neg fun h => ht h.1]

/-! ### in terms of the jobs -/

theorem jobDone_change {j : StoreJob} {h : List StoreEvent} {id : UInt64} (hd : Spec.JobDone j h id) {t key : Str}
    {k : Value} {fs : List Field} (he : StoreEvent.change t key k fs ∈ h) :
    ∃ m : ActiveModel, j = .update key k m ∧ m.table = t ∧ fs.map (·.1) = Spec.setNames m := by
  cases hd with
  | insert _ =>
    obtain ⟨r, _, hr⟩ := List.mem_map.1 he
    cases hr
  | update h1 h2 h3 _ =>
    rcases List.mem_append.1 he with he | he
    · obtain ⟨r, _, hr⟩ := List.mem_map.1 he
      cases hr
    · cases List.mem_singleton.1 he
      refine ⟨_, rfl, rfl, ?_⟩
      rw [Spec.setNames, List.map_append, List.map_append, plainSet_names h1, structSet_names h2, referred_names _ h3]
  | same _ _ _ =>
    obtain ⟨r, _, hr⟩ := List.mem_map.1 he
    cases hr

theorem jobsDone_change {js : List StoreJob} {h : List StoreEvent} {ids : List UInt64} (hd : Spec.JobsDone js h ids)
    {t key : Str} {k : Value} {fs : List Field} (he : StoreEvent.change t key k fs ∈ h) :
    ∃ m : ActiveModel, .update key k m ∈ js ∧ m.table = t ∧ fs.map (·.1) = Spec.setNames m := by
  induction hd with
  | nil => cases he
  | cons h1 _ ih =>
    rcases List.mem_append.1 he with he | he
    · obtain ⟨m, rfl, h⟩ := jobDone_change h1 he
      exact ⟨m, List.mem_cons_self .., h⟩
    · obtain ⟨m, hm, h⟩ := ih he
      exact ⟨m, List.mem_cons_of_mem _ hm, h⟩

theorem jobsAt_change {js : List StoreJob} {h : List StoreEvent} {s : Spec.StoreStep} (hd : Spec.JobsAt js h s)
    {t key : Str} {k : Value} {fs : List Field} (he : StoreEvent.change t key k fs ∈ h) :
    ∃ m : ActiveModel, .update key k m ∈ js ∧ m.table = t ∧ fs.map (·.1) = Spec.setNames m := by
  induction hd with
  | here h1 =>
    cases h1 <;>
    · obtain ⟨r, _, hr⟩ := List.mem_map.1 he
      cases hr
  | later h1 _ ih =>
    rcases List.mem_append.1 he with he | he
    · obtain ⟨m, rfl, h⟩ := jobDone_change h1 he
      exact ⟨m, List.mem_cons_self .., h⟩
    · obtain ⟨m, hm, h⟩ := ih he
      exact ⟨m, List.mem_cons_of_mem _ hm, h⟩

theorem mem_eventsBy {i : Nat} {e : StoreEvent} {h : List (Nat × StoreEvent)} : e ∈ eventsBy i h ↔ (i, e) ∈ h := by
  unfold Spec.eventsBy
  rw [List.mem_filterMap]
  constructor
  · rintro ⟨⟨j, e'⟩, h1, h2⟩
    dsimp only at h2
    split at h2
    next hj =>
      cases h2
      subst hj
      exact h1
    · cases h2
  · intro h1
    exact ⟨_, h1, by simp⟩

/-- an update that took effect is one of a job of its program. -/
theorem change_job {S : SqlServer} {jobs : Nat → List StoreJob} (hj : ∀ i, ∀ j ∈ jobs i, j.Fits) {rows : Tables}
    {sched : List Nat} {x : StoreSystem} (hx : x = (StoreSystem.started rows jobs).go S sched) {i : Nat} {t key : Str}
    {k : Value} {fs : List Field} (he : (i, StoreEvent.change t key k fs) ∈ x.hist) :
    ∃ m : ActiveModel, .update key k m ∈ jobs i ∧ m.table = t ∧ fs.map (·.1) = Spec.setNames m := by
  have h := (C107_history S jobs hj rows sched x hx).2 i
  have hm := mem_eventsBy.2 he
  match x.outcome i, h with
  | some (.ok ids), h => exact jobsDone_change h hm
  | some (.error _), ⟨_, _, _, _, _, _, _, h, _⟩ => exact jobsAt_change h hm
  | none, ⟨_, h⟩ => exact jobsAt_change h hm

theorem lastGiven_none {S : SqlServer} {t : Str} {r : Rec} {c : Str} {h : List (Nat × StoreEvent)}
    (hn : ∀ i key id fs, (i, StoreEvent.change t key id fs) ∈ h → c ∉ fs.map (·.1)) : lastGiven S t r c h = none := by
  induction h with
  | nil => rfl
  | cons e h ih =>
    have ih := ih fun i key id fs hm => hn i key id fs (List.mem_cons_of_mem _ hm)
    match e with
    | (_, .row _) => exact ih
    | (i, .change t' key id fs) =>
      rw [lastGiven, ih]
      dsimp only
      by_cases ht : t' = t
      · subst ht
        rw [given_none (hn i key id fs (List.mem_cons_self ..))]
        simp
      · rw [if_neg fun h => ht h.1]

theorem lastGiven_append {S : SqlServer} {t : Str} {r : Rec} {c : Str} (a b : List (Nat × StoreEvent)) :
    lastGiven S t r c (a ++ b) = (lastGiven S t r c b).or (lastGiven S t r c a) := by
  induction a with
  | nil => simp [lastGiven]
  | cons e a ih =>
    match e with
    | (_, .row _) => exact ih
    | (i, .change t' key id fs) =>
      rw [List.cons_append, lastGiven, lastGiven, ih]
      cases lastGiven S t r c b <;> cases lastGiven S t r c a <;> rfl

/-- **C107**, updating: a column that only one program sets has the value that this program gave, whatever the others do
at the same time to the other columns of the row; and one that no program sets keeps its value. -/
theorem C107_disjoint (S : SqlServer) (jobs : Nat → List StoreJob) (hj : ∀ i, ∀ j ∈ jobs i, j.Fits) (rows : Tables)
    (sched : List Nat) (x : StoreSystem) (hx : x = (StoreSystem.started rows jobs).go S sched) (t key : Str)
    (hkey : ∀ i key' id m, .update key' id m ∈ jobs i → m.table = t → key' = key ∧ key ∉ Spec.setNames m)
    (n : Nat) (r : Rec) (hr : (rows t)[n]? = some r) :
    ∃ r', (x.rows t)[n]? = some r' ∧
      (∀ i id p plain structs refs ids c v, jobs i = [.update key id (.mk t p plain structs refs)] →
        x.outcome i = some (.ok ids) → (c, some (.ok v)) ∈ plain → S.eq (r key) (Spec.meaning id) = true →
        (∀ j, j ≠ i → ∀ key' id' m, .update key' id' m ∈ jobs j → m.table = t → c ∉ Spec.setNames m) →
        r' c = Spec.meaning v) ∧
      (∀ c, (∀ j key' id' m, .update key' id' m ∈ jobs j → m.table = t → c ∉ Spec.setNames m) → r' c = r c) := by
  obtain ⟨h1, h2⟩ := C107_history S jobs hj rows sched x hx
  have hfix : KeysFixed t x.hist := by
    intro i key1 id1 fs1 hm i' key2 id2 fs2 hm'
    obtain ⟨m, k1, k2, k3⟩ := change_job hj hx hm
    obtain ⟨m', k1', k2', k3'⟩ := change_job hj hx hm'
    rw [k3', (hkey i key1 id1 m k1 k2).1]
    exact (hkey i' key2 id2 m' k1' k2').2
  obtain ⟨r', g1, g2⟩ := C107_columns S h1 t hfix n r hr
  refine ⟨r', g1, ?_, ?_⟩
  · intro i id p plain structs refs ids c v hji ho hc he hothers
    have h := h2 i
    rw [ho, hji] at h
    have hfits := hj i (.update key id (.mk t p plain structs refs)) (by rw [hji]; exact List.mem_singleton.2 rfl)
    have hwr : Spec.Writable (.mk t p plain structs refs) := hfits.1
    obtain ⟨fs, log, hev, hnd, hcv⟩ : ∃ fs log, eventsBy i x.hist =
        List.map StoreEvent.row log ++ [.change t key id fs] ∧ (fs.map (·.1)).Nodup ∧ (c, v) ∈ fs := by
      generalize eventsBy i x.hist = ev at h
      cases h with
      | cons h3 h4 =>
        cases h4
        rw [List.append_nil]
        cases h3 with
        | update a1 a2 a3 _ =>
          refine ⟨_, _, rfl, ?_, ?_⟩
          · rw [Spec.Writable, Spec.setNames] at hwr
            rw [List.map_append, List.map_append, plainSet_names a1, structSet_names a2, referred_names _ a3]
            exact hwr.2.2.1
          · exact List.mem_append_left _ (List.mem_append_left _ (((C52_fields _ _ a1).1 c v).2 hc))
        | same a1 a2 a3 =>
          have := ((C52_fields _ _ a1).1 c v).2 hc
          cases this
    obtain ⟨ha, hb, e1, e2, e3⟩ := List.filterMap_eq_append_iff.1 hev
    obtain ⟨p1, y, q1, rfl, e4, e5, e6⟩ := List.filterMap_eq_cons_iff.1 e3
    have hy : y = (i, .change t key id fs) := by
      obtain ⟨j, e⟩ := y
      dsimp only at e5
      split at e5
      next hji =>
        cases e5
        rw [hji]
      · cases e5
    subst hy
    have hlast : lastGiven S t r c x.hist = some (Spec.meaning v) := by
      rw [e1, lastGiven_append, lastGiven_append]
      have hq : lastGiven S t r c q1 = none := by
        refine lastGiven_none ?_
        intro j key' id' fs' hm
        have hne : j ≠ i := by
          rintro rfl
          have := List.filterMap_eq_nil_iff.1 e6 _ hm
          simp at this
        obtain ⟨m, k1, k2, k3⟩ := change_job hj hx (i := j) (t := t) (key := key') (k := id') (fs := fs') (by
          rw [e1]
          exact List.mem_append_right _ (List.mem_append_right _ (List.mem_cons_of_mem _ hm)))
        rw [k3]
        exact hothers j hne key' id' m k1 k2
      rw [lastGiven, hq]
      dsimp only
      rw [if_pos ⟨rfl, he⟩, given_mem hnd hcv]
      rfl
    rw [g2 c, hlast]
    rfl
  · intro c hn
    rw [g2 c, lastGiven_none]
    · rfl
    · intro i key' id fs hm
      obtain ⟨m, k1, k2, k3⟩ := change_job hj hx hm
      rw [k3]
      exact hn i key' id m k1 k2

/-! ### an example -/

namespace C107

/-- two programs insert a pet with its owner each; a third inserts a pet and finds the table full. -/
def jobs : Nat → List StoreJob
  | 0 => [.insert C67.pet.intoActive]
  | 1 => [.insert C97.cat.intoActive]
  | 2 => [.insert C66.pet]
  | _ => []

/-- the persons of both come first, in the other order than the pets. -/
def sched : List Nat := [0, 1, 2, 1, 0, 2, 0]

def final : StoreSystem := (StoreSystem.started C66.empty.rows jobs).go C66.server sched

/-- which programs inserted into which table, and the ids. -/
def inserted (x : StoreSystem) : List (Nat × String × UInt64) := x.hist.map fun e => match e.2 with
  | .row r => (e.1, String.ofList r.table, r.id)
  | .change t _ _ _ => (e.1, String.ofList t, 0)

/-- each pet has its own owner: the first the person 61, the second, which is stored first, the person 62.  The third
program is refused its pet; its person stays. -/
example : final.outcome 0 = some (.ok [32]) ∧ final.outcome 1 = some (.ok [31]) ∧
    final.outcome 2 = some (.error { code := 1114, state := "HY000".toList, msg := "full".toList }) ∧
    inserted final = [(0, "person", 61), (1, "person", 62), (2, "person", 63), (1, "pet", 31), (0, "pet", 32)] ∧
    (final.rows "pet".toList).map (fun r => [r "id".toList, r "name".toList, r "owner".toList]) =
      [[.int 4 true 31, .str [75], .int 8 true 62], [.int 4 true 32, .str [82], .int 8 true 61]] := by
  refine ⟨?_, ?_, ?_, ?_, ?_⟩ <;> decide +kernel

/-- the commands of the first two, the statements of one prepared while the other is between its own. -/
def msgs : List (Nat × Bytes) :=
  [(0, 0x16 :: utf8 "insert into `person` (`name`) values (?)".toList),
   (1, 0x16 :: utf8 "insert into `person` (`name`) values (?)".toList),
   (0, [23, 1, 0, 0, 0, 0, 1, 0, 0, 0, 0, 1, 253, 0, 1, 65]),
   (1, [23, 1, 0, 0, 0, 0, 1, 0, 0, 0, 0, 1, 253, 0, 1, 66]),
   (0, 0x16 :: utf8 "insert into `pet` (`name`, `owner`) values (?, ?)".toList),
   (1, 0x16 :: utf8 "insert into `pet` (`name`, `owner`) values (?, ?)".toList),
   (1, [23, 2, 0, 0, 0, 0, 1, 0, 0, 0, 0, 1, 253, 0, 8, 128, 1, 75, 62, 0, 0, 0, 0, 0, 0, 0]),
   (0, [23, 2, 0, 0, 0, 0, 1, 0, 0, 0, 0, 1, 253, 0, 8, 128, 1, 82, 61, 0, 0, 0, 0, 0, 0, 0])]

/-- both programs on their connections. -/
example : (C66.server.talkEach C66.empty.rows (fun _ => ⟨fun _ => none, fun _ _ => none⟩) msgs).map (fun x =>
      [0, 1].map fun i =>
        ((runJobs (jobs i) (exConn (x.2.2 i))).1,
          decide ((runJobs (jobs i) (exConn (x.2.2 i))).2.tx = Spec.commands (Spec.cmdsBy i msgs)),
          (runJobs (jobs i) (exConn (x.2.2 i))).2.rx.length)) =
    some [(.ok [32], true, 0), (.ok [31], true, 0)] := by
  decide +kernel

example : Spec.jobsModels (jobs 0) = 2 ∧ sched.count 0 = 3 := by
  refine ⟨?_, ?_⟩ <;> decide +kernel

def person1 : Rec := fun c => if c = "id".toList then .int 4 true 7 else .null

/-- two programs update the same row, one its name, the other its age and then its name. -/
def changes : Nat → List StoreJob
  | 0 => [.update "id".toList (.uint 7) (.mk "person".toList (some "id".toList)
      [("name".toList, some (.ok (.bytes [65])))] [] .nil)]
  | 1 => [.update "id".toList (.uint 7) (.mk "person".toList (some "id".toList)
      [("age".toList, some (.ok (.uint 3)))] [] .nil),
    .update "id".toList (.uint 7) (.mk "person".toList (some "id".toList)
      [("name".toList, some (.ok (.bytes [66])))] [] .nil)]
  | _ => []

def changed (sched : List Nat) : StoreSystem :=
  (StoreSystem.started (fun t => if t = "person".toList then [person1] else []) changes).go C66.server sched

/-- the age is that of the second in any order; the name that of the last. -/
example : ∀ s ∈ [[0, 1, 1], [1, 0, 1], [1, 1, 0]],
    (((changed s).rows "person".toList).map fun r => (r "age".toList, r "name".toList)) =
      [(.int 4 true 3, if s = [1, 1, 0] then .str [65] else .str [66])] := by
  decide +kernel

end C107

end Verif

import Verif.Props.C106_MigMany
import Verif.Props.C106_MigAgree

/-!
# C106: one of several programs gets through

Programs with the same migrations, where nothing is refused but what the unique index and the existing table refuse.
-/

namespace Verif

open Spec (MigServer MigStore SqlError MigGoal MigMover MigMove MovePhase MoveEvent MoveSystem)
open Spec.MoveSystem (turn run started)

section
variable {W : Type} (S : MigServer W) (jobs : Nat → MigMover)

/-- the same migrations (the goals may differ), which the server tells apart; nothing else is refused. -/
structure Unhindered (ms : List MigList) : Prop where
  proper : Proper ms
  lists : ∀ i, (jobs i).lists = ms
  short : ∀ k ∈ Spec.declared ms, k.2.length ≤ 255
  apart : ∀ a ∈ Spec.declared ms, ∀ b ∈ Spec.declared ms, a ≠ b → S.clash a b = false
  foreign : ∀ i w, ∀ m : MigMove, m.2 ∈ Spec.declared ms → ∃ w', S.foreign w ((jobs i).sql m) = .ok w'
  refuse : ∀ w rows k, S.refuse w rows k = none

variable {S jobs}

theorem Unhindered.new {ms : List MigList} (h : Unhindered S jobs ms) (w : W) (rows : List MigKey)
    (k : MigKey) (hr : ∀ j ∈ rows, j ∈ Spec.declared ms) (hk : k ∈ Spec.declared ms) (hn : k ∉ rows) :
    S.inserted w rows k.1.major.toNat k.1.minor.toNat k.1.patch.toNat k.2 = .ok (rows ++ [k]) := by
  unfold Spec.MigServer.inserted
  rw [if_pos ⟨k.1.major.toNat_lt, k.1.minor.toNat_lt, k.1.patch.toNat_lt⟩,
    if_neg (by have := h.short k hk; omega)]
  have hv : ((⟨.ofNat k.1.major.toNat, .ofNat k.1.minor.toNat, .ofNat k.1.patch.toNat⟩ : Version)) = k.1 := by
    simp
  simp only [hv]
  rw [if_neg, h.refuse]
  rw [List.any_eq_true]
  rintro ⟨j, hj, hc⟩
  have := h.apart j (hr j hj) k hk (fun e => hn (e ▸ hj))
  have hc' : S.clash j k = true := hc
  rw [this] at hc'
  cases hc'

theorem Unhindered.old {ms : List MigList} (hc : Collates S) (h : Unhindered S jobs ms) (w : W)
    (rows : List MigKey) (k : MigKey) (hk : k ∈ Spec.declared ms) (hn : k ∈ rows) :
    S.inserted w rows k.1.major.toNat k.1.minor.toNat k.1.patch.toNat k.2 = .error (S.duplicate k) := by
  unfold Spec.MigServer.inserted
  rw [if_pos ⟨k.1.major.toNat_lt, k.1.minor.toNat_lt, k.1.patch.toNat_lt⟩,
    if_neg (by have := h.short k hk; omega)]
  have hv : ((⟨.ofNat k.1.major.toNat, .ofNat k.1.minor.toNat, .ofNat k.1.patch.toNat⟩ : Version)) = k.1 := by
    simp
  simp only [hv]
  rw [if_pos]
  rw [List.any_eq_true]
  refine ⟨k, hn, ?_⟩
  unfold Spec.MigServer.clash
  rw [hc.refl]
  simp

/-- where a migration stands among the declared. -/
def placeAmong (ms : List MigList) (k : MigKey) : Nat := (Spec.declared ms).idxOf k

/-- moves that apply these and then revert those. -/
def moves (us ds : List MigKey) : List MigMove := us.map (fun k => (true, k)) ++ ds.map fun k => (false, k)

/-- what is ahead of a program: it applies in order, and of what stands at `M` or after it, nothing is recorded. -/
def Coming (ms : List MigList) (M : Nat) (rows : List MigKey) (l : List MigMove) : Prop :=
  ∃ us ds, l = moves us ds ∧ (∀ k ∈ us, k ∈ Spec.declared ms) ∧ (∀ k ∈ ds, k ∈ Spec.declared ms) ∧
    us.Pairwise (fun a b => placeAmong ms a < placeAmong ms b) ∧ ∀ k ∈ us, M ≤ placeAmong ms k → k ∉ rows

/-- what is ahead of a program that nobody has overtaken: it applies nothing that stands before `M`. -/
def Ahead (ms : List MigList) (M : Nat) (l : List MigMove) : Prop :=
  ∃ us ds, l = moves us ds ∧ ∀ k ∈ us, M ≤ placeAmong ms k

theorem moves_true {us ds : List MigKey} {k : MigKey} {l : List MigMove} (h : (true, k) :: l = moves us ds) :
    ∃ us', us = k :: us' ∧ l = moves us' ds := by
  cases us with
  | nil =>
    cases ds with
    | nil => cases h
    | cons d ds => cases h
  | cons u us =>
    cases h
    exact ⟨us, rfl, rfl⟩

theorem moves_false {us ds : List MigKey} {k : MigKey} {l : List MigMove} (h : (false, k) :: l = moves us ds) :
    us = [] ∧ ∃ ds', ds = k :: ds' ∧ l = moves [] ds' := by
  cases us with
  | nil =>
    cases ds with
    | nil => cases h
    | cons d ds =>
      cases h
      exact ⟨rfl, ds, rfl, rfl⟩
  | cons u us => cases h

/-- in order. -/
theorem declared_places {ms : List MigList} (h : Proper ms) :
    (Spec.declared ms).Pairwise fun a b => placeAmong ms a < placeAmong ms b := by
  rw [List.pairwise_iff_getElem]
  intro i j hi hj hij
  unfold placeAmong
  rw [h.nodup.idxOf_getElem i hi, h.nodup.idxOf_getElem j hj]
  exact hij

/-- where a program may be. -/
def MoveFine (S : MigServer W) (ms : List MigList) (M : Nat) (st : MigStore W) : MovePhase → Prop
  | .load => st.table.isSome = true
  | .act m l => st.table.isSome = true ∧ Coming ms M (st.table.getD []) (m :: l)
  | .note m l => st.table.isSome = true ∧ Coming ms M (st.table.getD []) (m :: l)
  | .failed e => (∃ k, e = S.duplicate k) ∨ e = S.hasTable
  | .crashed => False
  | _ => True

/-- where the one is that nobody has overtaken. -/
def MoveLeads (ms : List MigList) (M : Nat) (st : MigStore W) : MovePhase → Prop
  | .ask => M = 0
  | .create => M = 0 ∧ st.table = none
  | .load => M = 0
  | .act m l => Ahead ms M (m :: l)
  | .note m l => Ahead ms M (m :: l)
  | .done => True
  | .failed _ => False
  | .crashed => False

theorem fine_todo {ms : List MigList} {M : Nat} {st : MigStore W} {l : List MigMove}
    (h1 : st.table.isSome = true) (h2 : Coming ms M (st.table.getD []) l) : MoveFine S ms M st (.todo l) := by
  cases l with
  | nil => trivial
  | cons m l => exact ⟨h1, h2⟩

theorem lead_todo {ms : List MigList} {M : Nat} {st : MigStore W} {l : List MigMove} (h2 : Ahead ms M l) :
    MoveLeads ms M st (.todo l) := by
  cases l with
  | nil => trivial
  | cons m l => exact h2

/-- before `M` is what was recorded by one of them; whoever has recorded the last of that is not overtaken. -/
structure MoveRace (S : MigServer W) (ms : List MigList) (sched : List Nat) (M : Nat) (x : MoveSystem W) : Prop where
  known : ∀ k ∈ x.rows, k ∈ Spec.declared ms
  fine : ∀ i, MoveFine S ms M x.store (x.phase i)
  leads : ∃ i ∈ sched, MoveLeads ms M x.store (x.phase i)

theorem fine_same {ms : List MigList} {M M' : Nat} {st st' : MigStore W}
    (ht : st.table.isSome = true → st'.table.isSome = true)
    (hc : st.table.isSome = true → ∀ l, Coming ms M (st.table.getD []) l → Coming ms M' (st'.table.getD []) l)
    {p : MovePhase} (h : MoveFine S ms M st p) : MoveFine S ms M' st' p := by
  cases p with
  | load => exact ht h
  | act m l => exact ⟨ht h.1, hc h.1 _ h.2⟩
  | note m l => exact ⟨ht h.1, hc h.1 _ h.2⟩
  | failed e => exact h
  | crashed => exact h
  | ask => trivial
  | create => trivial
  | done => trivial

theorem lead_same {ms : List MigList} {M : Nat} {st st' : MigStore W}
    (hn : st.table = none → st'.table = none) {p : MovePhase}
    (h : MoveLeads ms M st p) : MoveLeads ms M st' p := by
  cases p with
  | create => exact ⟨h.1, hn h.2⟩
  | _ => exact h

theorem MoveRace.turn {ms : List MigList} {sched : List Nat} {M : Nat} {x : MoveSystem W} (hc : Collates S)
    (h : Unhindered S jobs ms) (hx : MoveRace S ms sched M x) {n : Nat} (hn : n ∈ sched) :
    ∃ M', MoveRace S ms sched M' (turn S jobs x n) := by
  have hfn := hx.fine n
  -- a step that leaves the leader where it was
  have quiet : ∀ (st' : MigStore W) (p' : MovePhase) (es : List MoveEvent),
      S.moveOn (jobs n) x.store (x.phase n) = (st', p', es) →
      (∀ k ∈ st'.table.getD [], k ∈ Spec.declared ms) →
      (x.store.table.isSome = true → st'.table.isSome = true) →
      (x.store.table.isSome = true → ∀ l, Coming ms M (x.store.table.getD []) l → Coming ms M (st'.table.getD []) l) →
      (x.store.table = none → st'.table = none) →
      MoveFine S ms M st' p' → (MoveLeads ms M x.store (x.phase n) → MoveLeads ms M st' p') →
      ∃ M', MoveRace S ms sched M' (Spec.MoveSystem.turn S jobs x n) := by
    intro st' p' es he hk hsome hcom hnone hfine hlead
    have hph : ∀ i, (Spec.MoveSystem.turn S jobs x n).phase i = if i = n then p' else x.phase i := by
      intro i
      simp only [Spec.MoveSystem.turn, he]
    have hst : (Spec.MoveSystem.turn S jobs x n).store = st' := by
      simp only [Spec.MoveSystem.turn, he]
    refine ⟨M, ?_, fun i => ?_, ?_⟩
    · unfold Spec.MoveSystem.rows
      rw [hst]
      exact hk
    · rw [hph, hst]
      split
      · exact hfine
      · exact fine_same hsome hcom (hx.fine i)
    · obtain ⟨i, hi, hl⟩ := hx.leads
      refine ⟨i, hi, ?_⟩
      rw [hph, hst]
      split
      next e =>
        subst e
        exact hlead hl
      · exact lead_same hnone hl
  have same : ∀ (w : W) (p' : MovePhase) (es : List MoveEvent),
      S.moveOn (jobs n) x.store (x.phase n) = (⟨x.store.table, w⟩, p', es) →
      MoveFine S ms M (⟨x.store.table, w⟩ : MigStore W) p' →
      (MoveLeads ms M x.store (x.phase n) → MoveLeads ms M (⟨x.store.table, w⟩ : MigStore W) p') →
      ∃ M', MoveRace S ms sched M' (Spec.MoveSystem.turn S jobs x n) := fun w p' es he hf hl =>
    quiet ⟨x.store.table, w⟩ p' es he hx.known id (fun _ _ h => h) id hf hl
  cases hp : x.phase n with
  | ask =>
    refine same x.store.world (if x.store.table.isSome then .load else .create) [] (by rw [hp]; rfl) ?_ fun hl => ?_
    · split
      · rename_i hs; exact hs
      · trivial
    · rw [hp] at hl
      split
      · exact hl
      · rename_i hs
        exact ⟨hl, by simpa using hs⟩
  | create =>
    cases ht : x.store.table with
    | none =>
      have he : S.moveOn (jobs n) x.store (x.phase n) = (⟨some [], x.store.world⟩, .load, []) := by
        rw [hp, Spec.MigServer.moveOn, ht]
      have hph : ∀ i, (Spec.MoveSystem.turn S jobs x n).phase i = if i = n then .load else x.phase i := by
        intro i
        simp only [Spec.MoveSystem.turn, he]
      have hst : (Spec.MoveSystem.turn S jobs x n).store = ⟨some [], x.store.world⟩ := by
        simp only [Spec.MoveSystem.turn, he]
      refine ⟨0, ?_, fun i => ?_, n, hn, ?_⟩
      · unfold Spec.MoveSystem.rows
        rw [hst]
        exact fun k hk => by cases hk
      · rw [hph, hst]
        split
        · exact rfl
        · exact fine_same (fun _ => rfl) (fun hs => by rw [ht] at hs; cases hs) (hx.fine i)
      · rw [hph, hst, if_pos rfl]
        rfl
    | some rows =>
      refine same x.store.world (.failed S.hasTable) [] (by rw [hp, Spec.MigServer.moveOn]; simp only [ht]; rw [← ht])
        (.inr rfl) fun hl => ?_
      rw [hp] at hl
      have hl' : x.store.table = none := hl.2
      rw [ht] at hl'
      cases hl'
  | load =>
    rw [hp] at hfn
    obtain ⟨rows, ht⟩ : ∃ rows, x.store.table = some rows := Option.isSome_iff_exists.1 hfn
    have hrows : x.rows = rows := by
      unfold Spec.MoveSystem.rows
      rw [ht]
      rfl
    have hall : (rows.all fun k => decide (k ∈ Spec.declared (jobs n).lists)) = true := by
      rw [List.all_eq_true]
      intro k hk
      rw [decide_eq_true_iff, h.lists]
      exact hx.known k (hrows ▸ hk)
    have hcom : Coming ms M rows ((jobs n).plan rows) := by
      refine ⟨_, _, rfl, fun k hk => ?_, fun k hk => ?_, ?_, fun k hk _ => ?_⟩
      · rw [List.mem_filter, h.lists] at hk
        exact hk.1
      · have hm : k ∈ ((Spec.declared (jobs n).lists).filter fun k =>
            (jobs n).goal.reverts k && decide (k ∈ rows)).reverse := by
          generalize ((Spec.declared (jobs n).lists).filter fun k =>
            (jobs n).goal.reverts k && decide (k ∈ rows)).reverse = l at hk ⊢
          generalize (jobs n).goal = g at hk
          cases g <;> first | exact hk | exact List.mem_of_mem_take hk
        rw [List.mem_reverse, List.mem_filter, h.lists] at hm
        exact hm.1
      · rw [h.lists]
        exact (declared_places h.proper).filter _
      · rw [List.mem_filter, Bool.and_eq_true, decide_eq_true_iff] at hk
        exact hk.2.2
    refine same x.store.world (.todo ((jobs n).plan rows)) [.read rows] ?_ ?_ fun hl => ?_
    · rw [hp, Spec.MigServer.moveOn, ht]
      dsimp only
      rw [if_pos hall]
      simp only [← ht]
    · refine fine_todo ?_ ?_
      · rw [ht]; rfl
      · rw [ht]; exact hcom
    · rw [hp] at hl
      have hM : M = 0 := hl
      exact lead_todo ⟨_, _, rfl, fun k _ => by rw [hM]; exact Nat.zero_le _⟩
  | act m l =>
    rw [hp] at hfn
    obtain ⟨us, ds, e1, e2, e3, _⟩ := hfn.2
    have hkd : m.2 ∈ Spec.declared ms := by
      obtain ⟨b, k⟩ := m
      cases b with
      | true =>
        obtain ⟨us', rfl, _⟩ := moves_true e1
        exact e2 k (List.mem_cons_self ..)
      | false =>
        obtain ⟨_, ds', rfl, _⟩ := moves_false e1
        exact e3 k (List.mem_cons_self ..)
    obtain ⟨w, hw⟩ := h.foreign n x.store.world m hkd
    refine same w (.note m l) [.took m] ?_ hfn fun hl => ?_
    · rw [hp, Spec.MigServer.moveOn, hw]
    · rw [hp] at hl
      exact hl
  | note m l =>
    rw [hp] at hfn
    obtain ⟨b, k⟩ := m
    obtain ⟨rows, ht⟩ : ∃ rows, x.store.table = some rows := Option.isSome_iff_exists.1 hfn.1
    have hrows : x.rows = rows := by
      unfold Spec.MoveSystem.rows
      rw [ht]
      rfl
    have hkn : ∀ j ∈ rows, j ∈ Spec.declared ms := fun j hj => hx.known j (hrows ▸ hj)
    have hcom := hfn.2
    rw [ht] at hcom
    change Coming ms M rows ((b, k) :: l) at hcom
    obtain ⟨us, ds, e1, e2, e3, e4, e6⟩ := hcom
    cases b with
    | true =>
      obtain ⟨us', rfl, e5⟩ := moves_true e1
      have hkd := e2 k (List.mem_cons_self ..)
      rw [List.pairwise_cons] at e4
      by_cases hold : k ∈ rows
      · -- somebody else was faster
        have hin := h.old hc x.store.world rows k hkd hold
        refine same x.store.world (.failed (S.duplicate k)) [] ?_ (.inl ⟨k, rfl⟩) fun hl => ?_
        · rw [hp, Spec.MigServer.moveOn, ht]
          dsimp only
          rw [hin]
          simp only [← ht]
        · rw [hp] at hl
          obtain ⟨us2, ds2, f1, f2⟩ := hl
          obtain ⟨us3, rfl, _⟩ := moves_true f1
          exact absurd hold (e6 k (List.mem_cons_self ..) (f2 k (List.mem_cons_self ..)))
      · have hin := h.new x.store.world rows k hkn hkd hold
        have he : S.moveOn (jobs n) x.store (x.phase n) =
            (⟨some (rows ++ [k]), x.store.world⟩, .todo l, [.noted (true, k)]) := by
          rw [hp, Spec.MigServer.moveOn, ht]
          dsimp only
          rw [hin]
        have hkn' : ∀ j ∈ rows ++ [k], j ∈ Spec.declared ms := by
          intro j hj
          rcases List.mem_append.1 hj with hj | hj
          · exact hkn j hj
          · rw [List.mem_singleton.1 hj]
            exact hkd
        have hcom' : ∀ M', M ≤ M' → placeAmong ms k < M' → ∀ l, Coming ms M rows l → Coming ms M' (rows ++ [k]) l := by
          rintro M' h1 h2 l ⟨us2, ds2, f1, f2, f3, f4, f5⟩
          refine ⟨us2, ds2, f1, f2, f3, f4, fun j hj hMj hm => ?_⟩
          rcases List.mem_append.1 hm with hm | hm
          · exact f5 j hj (h1.trans hMj) hm
          · rw [List.mem_singleton.1 hm] at hMj
            omega
        have hnew : ∀ M', M ≤ M' → placeAmong ms k < M' → Coming ms M' (rows ++ [k]) l := by
          intro M' h1 h2
          refine ⟨us', ds, e5, fun j hj => e2 j (List.mem_cons_of_mem _ hj), e3, e4.2, fun j hj hMj hm => ?_⟩
          rcases List.mem_append.1 hm with hm | hm
          · exact e6 j (List.mem_cons_of_mem _ hj) (h1.trans hMj) hm
          · rw [List.mem_singleton.1 hm] at hMj
            omega
        by_cases hM : M ≤ placeAmong ms k
        · have hph : ∀ i, (Spec.MoveSystem.turn S jobs x n).phase i = if i = n then .todo l else x.phase i := by
            intro i
            simp only [Spec.MoveSystem.turn, he]
          have hst : (Spec.MoveSystem.turn S jobs x n).store = ⟨some (rows ++ [k]), x.store.world⟩ := by
            simp only [Spec.MoveSystem.turn, he]
          refine ⟨placeAmong ms k + 1, ?_, fun i => ?_, n, hn, ?_⟩
          · unfold Spec.MoveSystem.rows
            rw [hst]
            exact hkn'
          · rw [hph, hst]
            split
            · exact fine_todo rfl (hnew _ (by omega) (by omega))
            · refine fine_same (fun _ => rfl) (fun _ l hl => ?_) (hx.fine i)
              rw [ht] at hl
              exact hcom' _ (by omega) (by omega) l hl
          · rw [hph, hst, if_pos rfl]
            exact lead_todo ⟨us', ds, e5, fun j hj => e4.1 j hj⟩
        · refine quiet ⟨some (rows ++ [k]), x.store.world⟩ (.todo l) _ he hkn' (fun _ => rfl) (fun _ l hl => ?_)
            (fun hnone => by rw [ht] at hnone; cases hnone) (fine_todo rfl (hnew M (Nat.le_refl _) (by omega)))
            fun hl => ?_
          · rw [ht] at hl
            exact hcom' M (Nat.le_refl _) (by omega) l hl
          · rw [hp] at hl
            obtain ⟨us2, ds2, f1, f2⟩ := hl
            obtain ⟨us3, rfl, _⟩ := moves_true f1
            exact absurd (f2 k (List.mem_cons_self ..)) hM
    | false =>
      obtain ⟨rfl, ds', rfl, e5⟩ := moves_false e1
      refine quiet ⟨some (rows.filter fun j => !S.clash j k), x.store.world⟩ (.todo l) [.noted (false, k)] ?_ ?_
        (fun _ => rfl) (fun _ l hl => ?_) (fun hnone => by rw [ht] at hnone; cases hnone) ?_ ?_
      · rw [hp, Spec.MigServer.moveOn, ht]
      · intro j hj
        exact hkn j (List.mem_filter.1 hj).1
      · rw [ht] at hl
        obtain ⟨us2, ds2, f1, f2, f3, f4, f5⟩ := hl
        exact ⟨us2, ds2, f1, f2, f3, f4, fun j hj hMj hm => f5 j hj hMj (List.mem_filter.1 hm).1⟩
      · exact fine_todo rfl ⟨[], ds', e5, (fun j hj => absurd hj List.not_mem_nil),
          (fun j hj => e3 j (List.mem_cons_of_mem _ hj)), .nil, fun j hj => absurd hj List.not_mem_nil⟩
      · exact fun _ => lead_todo ⟨[], ds', e5, fun j hj => absurd hj List.not_mem_nil⟩
  | done => exact same x.store.world .done [] (by rw [hp]; rfl) trivial fun _ => trivial
  | failed e =>
    rw [hp] at hfn
    exact same x.store.world (.failed e) [] (by rw [hp]; rfl) hfn fun hl => by rw [hp] at hl; exact hl
  | crashed =>
    rw [hp] at hfn
    exact hfn.elim

/-- Programs with the same migrations, whatever their goals, where nothing is refused but what the unique index and the
existing table refuse: when all have ended, one has ended without error; each of the others has ended without error, or
with the refusal of a record, or with that of the table. -/
theorem C106_someone (hc : Collates S) {ms : List MigList} (h : Unhindered S jobs ms) (st : MigStore W)
    (h0 : ∀ k ∈ st.table.getD [], k ∈ Spec.declared ms) (schedule : List Nat) (hs : schedule ≠ [])
    (he : ∀ i ∈ schedule, ((run S jobs (started st) schedule).phase i).ended = true) :
    let x := run S jobs (started st) schedule
    (∃ i ∈ schedule, x.phase i = .done) ∧
    ∀ i ∈ schedule, x.phase i = .done ∨ (∃ k, x.phase i = .failed (S.duplicate k)) ∨ x.phase i = .failed S.hasTable := by
  intro x
  have key : ∀ (sched : List Nat) (y : MoveSystem W), (∀ i ∈ sched, i ∈ schedule) → (∃ M, MoveRace S ms schedule M y) →
      ∃ M, MoveRace S ms schedule M (run S jobs y sched) := by
    intro sched
    induction sched with
    | nil => exact fun y _ hy => hy
    | cons n is ih =>
      rintro y hsub ⟨M, hy⟩
      exact ih _ (fun i hi => hsub i (List.mem_cons_of_mem _ hi)) (hy.turn hc h (hsub n (List.mem_cons_self ..)))
  obtain ⟨M, hx⟩ : ∃ M, MoveRace S ms schedule M x := by
    refine key schedule _ (fun i hi => hi) ⟨0, h0, fun i => trivial, ?_⟩
    cases schedule with
    | nil => exact absurd rfl hs
    | cons i is => exact ⟨i, List.mem_cons_self .., rfl⟩
  refine ⟨?_, fun i hi => ?_⟩
  · obtain ⟨i, hi, hl⟩ := hx.leads
    refine ⟨i, hi, ?_⟩
    have hei : (x.phase i).ended = true := he i hi
    cases hp : x.phase i with
    | done => rfl
    | failed e => rw [hp] at hl; exact hl.elim
    | crashed => rw [hp] at hl; exact hl.elim
    | ask => rw [hp] at hei; cases hei
    | create => rw [hp] at hei; cases hei
    | load => rw [hp] at hei; cases hei
    | act m l => rw [hp] at hei; cases hei
    | note m l => rw [hp] at hei; cases hei
  · have hf := hx.fine i
    have hei : (x.phase i).ended = true := he i hi
    cases hp : x.phase i with
    | done => exact .inl rfl
    | failed e =>
      rw [hp] at hf
      rcases hf with ⟨k, rfl⟩ | rfl
      · exact .inr (.inl ⟨k, rfl⟩)
      · exact .inr (.inr rfl)
    | crashed => rw [hp] at hf; exact hf.elim
    | ask => rw [hp] at hei; cases hei
    | create => rw [hp] at hei; cases hei
    | load => rw [hp] at hei; cases hei
    | act m l => rw [hp] at hei; cases hei
    | note m l => rw [hp] at hei; cases hei

/-- Programs with the same migrations that all move to one version, where nothing else is refused: when all have ended,
exactly the migrations up to that version are recorded, though some of the programs may have failed. -/
theorem C106_version (hc : Collates S) {ms : List MigList} (h : Unhindered S jobs ms) (st : MigStore W)
    (h0 : S.Sound (st.table.getD [])) (h1 : ∀ k ∈ st.table.getD [], k ∈ Spec.declared ms) (v : Version)
    (hv : ∀ i, (jobs i).goal = .goto v) (schedule : List Nat) (hs : schedule ≠ [])
    (he : ∀ i ∈ schedule, ((run S jobs (started st) schedule).phase i).ended = true) :
    ∀ k ∈ Spec.declared ms, k ∈ (run S jobs (started st) schedule).rows ↔ Spec.rank k.1 ≤ Spec.rank v := by
  intro k hk
  obtain ⟨⟨i, _, hd⟩, _⟩ := C106_someone hc h st h1 schedule hs he
  have := C106_goal_partial hc (fun i k hk => h.short k (h.lists i ▸ hk)) st h0 v hv schedule [] i hd k
    (by rw [h.lists]; exact hk)
  rwa [List.append_nil] at this

end

namespace C106ex

open C69ex (server sqlOf v1)

/-- both move to the version of the migrations. -/
def both : Nat → MigMover := fun _ => mover (.goto v1)
/-- nothing is there yet, not even the table. -/
def bareSt : MigStore (List Str) := ⟨none, []⟩

/-- the conditions of `C106_someone`, whatever the goals. -/
theorem unhindered (goals : Nat → MigGoal) : Unhindered S0 (fun i => mover (goals i)) ms := by
  have hd : ∀ k, k ∈ Spec.declared ms → k = a ∨ k = b := by
    intro k hk
    simpa [ms, Spec.declared, a, b] using hk
  refine ⟨(fairMover ms (.inl rfl) .up).1.proper, fun _ => rfl, (fairMover ms (.inl rfl) .up).2,
    fun x hx y hy hxy => ?_, fun i w m hk => ?_, fun _ _ _ => rfl⟩
  · rcases hd x hx with rfl | rfl <;> rcases hd y hy with rfl | rfl <;>
      first | exact absurd rfl hxy | decide +kernel
  · have hsql : (mover (goals i)).sql m ≠ "boom".toList := by
      obtain ⟨u, k⟩ := m
      show (if u then sqlOf k else downOf k) ≠ "boom".toList
      rcases hd k hk with rfl | rfl <;> cases u <;> decide +kernel
    refine ⟨w ++ [(mover (goals i)).sql m], ?_⟩
    show (if (mover (goals i)).sql m = "boom".toList then Except.error (⟨1064, "42000".toList, "no".toList⟩ : SqlError) else
      .ok (w ++ [(mover (goals i)).sql m])) = _
    rw [if_neg hsql]

/-- both read; the first applies and records `a`, the second fails with it; the first gets through. -/
example :
    let x := run S0 both (started bareSt) [0, 0, 0, 1, 1, 0, 0, 1, 1, 0, 0]
    x.phase 0 = .done ∧ x.phase 1 = .failed ⟨1062, "23000".toList, "dup".toList⟩ ∧ x.store.table = some [a, b] := by
  decide +kernel

/-- both want to create the table. -/
example :
    let x := run S0 both (started bareSt) [0, 1, 1, 0, 1, 1, 1, 1, 1]
    x.phase 0 = .failed ⟨1050, "42S01".toList, []⟩ ∧ x.phase 1 = .done ∧ x.store.table = some [a, b] := by
  decide +kernel

/-- the one that was overtaken overtakes: the second records `a` again, after it was reverted, and `b`. -/
example :
    let goals : Nat → MigGoal := fun i => if i = 2 then .goto v0 else .up
    let x := run S0 (fun i => mover (goals i)) (started st0) [0, 0, 1, 1, 0, 0, 2, 2, 2, 2, 1, 1, 1, 1, 0, 0]
    x.phase 0 = .failed ⟨1062, "23000".toList, "dup".toList⟩ ∧ x.phase 1 = .done ∧ x.phase 2 = .done ∧
      x.store.table = some [a, b] := by
  decide +kernel

end C106ex

end Verif

import Verif.Props.C101_MigTogether

/-!
# C101 — who gets through

When several programs with the same migrations migrate at the same time, and nothing is refused but what the
unique index and the existing table refuse, one of them gets through.
-/

namespace Verif

open Spec (MigServer MigStore SqlError MigJob MigPhase MigEvent MigSystem recordedKeys eventsOf)
open Spec.MigSystem (turn run started)

section
variable {W : Type} (S : MigServer W) (jobs : Nat → MigJob)

/-- the same migrations; the server tells them apart; nothing else is refused. -/
structure Smooth (ms : List MigList) : Prop where
  proper : Proper ms
  lists : ∀ i, (jobs i).lists = ms
  short : ∀ k ∈ Spec.declared ms, k.2.length ≤ 255
  apart : ∀ a ∈ Spec.declared ms, ∀ b ∈ Spec.declared ms, a ≠ b → S.clash a b = false
  foreign : ∀ i w, ∀ k ∈ Spec.declared ms, ∃ w', S.foreign w ((jobs i).upSql k) = .ok w'
  refuse : ∀ w rows k, S.refuse w rows k = none

variable {S jobs}

theorem inserted_new {ms : List MigList} (h : Smooth S jobs ms) (w : W) (rows : List MigKey) (k : MigKey)
    (hr : ∀ j ∈ rows, j ∈ Spec.declared ms) (hk : k ∈ Spec.declared ms) (hn : k ∉ rows) :
    S.inserted w rows k.1.major.toNat k.1.minor.toNat k.1.patch.toNat k.2 = .ok (rows ++ [k]) := by
  unfold Spec.MigServer.inserted
  rw [if_pos ⟨k.1.major.toNat_lt, k.1.minor.toNat_lt, k.1.patch.toNat_lt⟩,
    if_neg (by have := h.short k hk; omega)]
  have hv : ((⟨.ofNat k.1.major.toNat, .ofNat k.1.minor.toNat, .ofNat k.1.patch.toNat⟩ : Version)) = k.1 := by
    simp
  simp only [hv]
  rw [if_neg, h.refuse]
  rw [List.any_eq_true]
  rintro ⟨j, hj, hc⟩
  have := h.apart j (hr j hj) k hk (fun e => hn (e ▸ hj))
  have hc' : S.clash j k = true := hc
  rw [this] at hc'
  cases hc'

theorem inserted_old {ms : List MigList} (hc : Collates S) (h : Smooth S jobs ms) (w : W) (rows : List MigKey) (k : MigKey)
    (hk : k ∈ Spec.declared ms) (hn : k ∈ rows) :
    S.inserted w rows k.1.major.toNat k.1.minor.toNat k.1.patch.toNat k.2 = .error (S.duplicate k) := by
  unfold Spec.MigServer.inserted
  rw [if_pos ⟨k.1.major.toNat_lt, k.1.minor.toNat_lt, k.1.patch.toNat_lt⟩,
    if_neg (by have := h.short k hk; omega)]
  have hv : ((⟨.ofNat k.1.major.toNat, .ofNat k.1.minor.toNat, .ofNat k.1.patch.toNat⟩ : Version)) = k.1 := by
    simp
  simp only [hv]
  rw [if_pos]
  rw [List.any_eq_true]
  refine ⟨k, hn, ?_⟩
  unfold Spec.MigServer.clash
  rw [hc.refl]
  simp

/-- the migrations ahead of a program. -/
def ahead : MigPhase → Option (List MigKey)
  | .up k ks => some (k :: ks)
  | .record k ks => some (k :: ks)
  | _ => none

/-- nobody is further than this one. -/
def RaceLeads (todo : List MigKey) (st : MigStore W) : MigPhase → Prop
  | .ask => True
  | .create => st.table = none
  | .load => st.table.isSome = true
  | .up k ks => todo = k :: ks
  | .record k ks => todo = k :: ks
  | .done => True
  | _ => False

/-- what a program can have come to. -/
def Losing (st : MigStore W) : MigPhase → Prop
  | .load => st.table.isSome = true
  | .up _ _ => st.table.isSome = true
  | .record _ _ => st.table.isSome = true
  | .failed e => (∃ k, e = S.duplicate k) ∨ e = S.hasTable
  | .crashed => False
  | _ => True

/-- `todo`: what nobody has recorded. -/
structure Race (ms : List MigList) (rows0 : List MigKey) (among : List Nat) (x : MigSystem W) (todo : List MigKey) : Prop where
  rows : x.rows = rows0 ++ recordedKeys x.log
  all : (Spec.declared ms).filter (fun k => decide (k ∉ rows0)) = recordedKeys x.log ++ todo
  behind : ∀ i ks, ahead (x.phase i) = some ks → ∃ a pre, recordedKeys x.log = a ++ pre ∧ ks = pre ++ todo
  leads : ∃ i ∈ among, RaceLeads todo x.store (x.phase i)
  losing : ∀ i, Losing (S := S) x.store (x.phase i)

variable {ms : List MigList} {rows0 : List MigKey} {among : List Nat}

theorem ahead_todo {ks js : List MigKey} (h : ahead (.todo ks) = some js) : js = ks := by
  cases ks with
  | nil => cases h
  | cons => cases h; rfl

theorem leads_todo (st : MigStore W) (ks : List MigKey) : RaceLeads ks st (.todo ks) := by
  cases ks <;> trivial

theorem losing_todo {st : MigStore W} (h : st.table.isSome = true) (ks : List MigKey) : Losing (S := S) st (.todo ks) := by
  cases ks with
  | nil => trivial
  | cons => exact h

theorem Race.turn (hc : Collates S) (h : Smooth S jobs ms) (h0 : ∀ k ∈ rows0, k ∈ Spec.declared ms)
    {x : MigSystem W} {todo : List MigKey} (hx : Race (S := S) ms rows0 among x todo) {n : Nat} (hn : n ∈ among) :
    ∃ todo', Race (S := S) ms rows0 among (turn S jobs x n) todo' := by
  have hnd : (recordedKeys x.log ++ todo).Nodup := by
    rw [← hx.all]
    exact h.proper.nodup.filter _
  have hdecl : ∀ k, k ∈ recordedKeys x.log ∨ k ∈ todo → k ∈ Spec.declared ms ∧ k ∉ rows0 := by
    intro k hk
    have : k ∈ (Spec.declared ms).filter (fun k => decide (k ∉ rows0)) := by
      rw [hx.all, List.mem_append]
      exact hk
    rw [List.mem_filter, decide_eq_true_iff] at this
    exact this
  have hrdecl : ∀ k ∈ x.rows, k ∈ Spec.declared ms := by
    intro k hk
    rw [hx.rows, List.mem_append] at hk
    rcases hk with hk | hk
    · exact h0 k hk
    · exact (hdecl k (.inl hk)).1
  have hlacks : ∀ rows, x.store.table = some rows → (jobs n).lacks rows = todo := by
    intro rows hr
    have e : rows = rows0 ++ recordedKeys x.log := by
      rw [← hx.rows]
      unfold Spec.MigSystem.rows
      rw [hr]
      rfl
    unfold Spec.MigJob.lacks
    rw [h.lists, e]
    have : (Spec.declared ms).filter (fun k => decide (k ∉ rows0 ++ recordedKeys x.log)) =
        ((Spec.declared ms).filter (fun k => decide (k ∉ rows0))).filter fun k => decide (k ∉ recordedKeys x.log) := by
      rw [List.filter_filter]
      refine List.filter_congr fun k _ => ?_
      simp only [List.mem_append]
      by_cases ha : k ∈ rows0 <;> by_cases hb : k ∈ recordedKeys x.log <;> simp [ha, hb]
    rw [this, hx.all]
    rw [List.nodup_append] at hnd
    rw [List.filter_append, List.filter_eq_nil_iff.2 (by simp), List.nil_append, List.filter_eq_self]
    intro k hk
    simp only [decide_eq_true_iff]
    exact fun hk' => hnd.2.2 k hk' k hk rfl
  -- a turn that records nothing
  have quiet : ∀ (st' : MigStore W) (p' : MigPhase) (es : List MigEvent),
      S.advance (jobs n) x.store (x.phase n) = (st', p', es) → st'.table.getD [] = x.store.table.getD [] →
      recordedKeys (es.map fun e => (n, e)) = [] →
      (∀ ks, ahead p' = some ks → ∃ a pre, recordedKeys x.log = a ++ pre ∧ ks = pre ++ todo) →
      (x.store.table.isSome = true → st'.table.isSome = true) →
      (st'.table.isSome = true → x.store.table = none → RaceLeads todo st' p') →
      (RaceLeads todo x.store (x.phase n) → RaceLeads todo st' p') → Losing (S := S) st' p' →
      Race (S := S) ms rows0 among (Spec.MigSystem.turn S jobs x n) todo := by
    intro st' p' es ha htab hes hb hsome hnew hlead hlose
    have hlog : recordedKeys (Spec.MigSystem.turn S jobs x n).log = recordedKeys x.log := by
      simp only [Spec.MigSystem.turn, ha, recordedKeys_append, hes, List.append_nil]
    have hph : ∀ i, (Spec.MigSystem.turn S jobs x n).phase i = if i = n then p' else x.phase i := by
      intro i
      simp only [Spec.MigSystem.turn, ha]
    have hst : (Spec.MigSystem.turn S jobs x n).store = st' := by
      simp only [Spec.MigSystem.turn, ha]
    refine ⟨?_, ?_, ?_, ?_, ?_⟩
    · rw [hlog, ← hx.rows]
      unfold Spec.MigSystem.rows
      rw [hst, htab]
    · rw [hlog]; exact hx.all
    · intro i ks hi
      rw [hph] at hi
      rw [hlog]
      split at hi
      · exact hb ks hi
      · exact hx.behind i ks hi
    · obtain ⟨i, hi, hli⟩ := hx.leads
      by_cases hin : i = n
      · subst hin
        refine ⟨i, hi, ?_⟩
        rw [hph, if_pos rfl, hst]
        exact hlead hli
      · by_cases hcr : st'.table.isSome = true ∧ x.store.table = none
        · refine ⟨n, hn, ?_⟩
          rw [hph, if_pos rfl, hst]
          exact hnew hcr.1 hcr.2
        · refine ⟨i, hi, ?_⟩
          rw [hph, if_neg hin, hst]
          cases hp : x.phase i with
          | create =>
            rw [hp] at hli
            show st'.table = none
            by_contra hne
            exact hcr ⟨Option.isSome_iff_ne_none.2 hne, hli⟩
          | load => rw [hp] at hli; exact hsome hli
          | ask => trivial
          | done => trivial
          | up k ks => rw [hp] at hli; exact hli
          | record k ks => rw [hp] at hli; exact hli
          | failed e => rw [hp] at hli; exact hli
          | crashed => rw [hp] at hli; exact hli
    · intro i
      rw [hph, hst]
      split
      · exact hlose
      · have := hx.losing i
        cases hp : x.phase i with
        | load => rw [hp] at this; exact hsome this
        | up k ks => rw [hp] at this; exact hsome this
        | record k ks => rw [hp] at this; exact hsome this
        | failed e => rw [hp] at this; exact this
        | crashed => rw [hp] at this; exact this
        | ask => trivial
        | create => trivial
        | done => trivial
  have hln := hx.losing n
  have hbn := hx.behind n
  cases hp : x.phase n with
  | ask =>
    refine ⟨todo, quiet _ _ [] (by rw [hp]; rfl) rfl rfl ?_ id (fun h1 h2 => ?_) (fun _ => ?_) ?_⟩
    · intro ks hks
      split at hks <;> cases hks
    · rw [h2] at h1; cases h1
    · split
      · rename_i hs; exact hs
      · rename_i hs
        show x.store.table = none
        simpa using hs
    · split
      · rename_i hs; exact hs
      · trivial
  | create =>
    cases ht : x.store.table with
    | none =>
      refine ⟨todo, quiet ⟨some [], x.store.world⟩ .load [] (by rw [hp, Spec.MigServer.advance, ht]) (by rw [ht]; rfl) rfl
        (fun ks hks => by cases hks) (fun _ => rfl) (fun _ _ => rfl) (fun _ => rfl) rfl⟩
    | some rows =>
      refine ⟨todo, quiet x.store (.failed S.hasTable) [] (by rw [hp, Spec.MigServer.advance, ht]) rfl rfl
        (fun ks hks => by cases hks) id (fun h1 h2 => ?_) (fun hl => ?_) (.inr rfl)⟩
      · rw [h2] at h1; cases h1
      · rw [hp] at hl
        have hl' : x.store.table = none := hl
        rw [ht] at hl'
        cases hl'
  | load =>
    rw [hp] at hln
    cases ht : x.store.table with
    | none =>
      have hln' : x.store.table.isSome = true := hln
      rw [ht] at hln'
      cases hln'
    | some rows =>
      have hall : (rows.all fun k => decide (k ∈ Spec.declared (jobs n).lists)) = true := by
        rw [List.all_eq_true]
        intro k hk
        rw [decide_eq_true_iff, h.lists]
        refine hrdecl k ?_
        unfold Spec.MigSystem.rows
        rw [ht]
        exact hk
      refine ⟨todo, quiet x.store (.todo todo) [.read rows] ?_ rfl rfl (fun ks hks => ⟨_, [], (List.append_nil _).symm, ahead_todo hks⟩) id
        (fun h1 h2 => ?_) (fun _ => leads_todo _ _) (losing_todo (by rw [ht]; rfl) _)⟩
      · rw [hp, Spec.MigServer.advance, ht]
        dsimp only
        rw [if_pos hall, hlacks rows ht]
      · rw [h2] at h1; cases h1
  | up k ks =>
    rw [hp] at hln hbn
    obtain ⟨a, pre, hrec, hpre⟩ := hbn _ rfl
    have hkd : k ∈ Spec.declared ms := by
      have : k ∈ pre ++ todo := by rw [← hpre]; simp
      refine (hdecl k ?_).1
      rw [hrec]
      rcases List.mem_append.1 this with h1 | h1
      · exact .inl (List.mem_append_right _ h1)
      · exact .inr h1
    obtain ⟨w, hw⟩ := h.foreign n x.store.world k hkd
    refine ⟨todo, quiet ⟨x.store.table, w⟩ (.record k ks) [.took k] ?_ rfl rfl (fun js hjs => ?_) id
        (fun h1 h2 => ?_) (fun hl => ?_) hln⟩
    · rw [hp, Spec.MigServer.advance, hw]
    · cases hjs
      exact ⟨a, pre, hrec, hpre⟩
    · dsimp only at h1
      rw [h2] at h1
      cases h1
    · rw [hp] at hl
      exact hl
  | record k ks =>
    rw [hp] at hln hbn
    obtain ⟨a, pre, hrec, hpre⟩ := hbn _ rfl
    obtain ⟨rows, ht⟩ : ∃ rows, x.store.table = some rows := Option.isSome_iff_exists.1 hln
    have hrows : rows = x.rows := by
      unfold Spec.MigSystem.rows
      rw [ht]
      rfl
    cases pre with
    | cons b pre =>
      -- somebody else was faster
      cases hpre
      have hkr : k ∈ recordedKeys x.log := by rw [hrec]; simp
      have hin := inserted_old hc h x.store.world rows k (hdecl k (.inl hkr)).1
        (by rw [hrows, hx.rows]; exact List.mem_append_right _ hkr)
      refine ⟨todo, quiet x.store (.failed (S.duplicate k)) [] ?_ rfl rfl (fun js hjs => by cases hjs) id
        (fun h1 h2 => ?_) (fun hl => ?_) (.inl ⟨k, rfl⟩)⟩
      · rw [hp, Spec.MigServer.advance, ht]
        dsimp only
        rw [hin]
      · rw [h2] at h1; cases h1
      · rw [hp] at hl
        have hl' : todo = k :: (pre ++ todo) := hl
        have := congrArg List.length hl'
        simp at this
        omega
    | nil =>
      rw [List.nil_append] at hpre
      have hkd := hdecl k (.inr (by rw [← hpre]; simp))
      have hknew : k ∉ rows := by
        rw [hrows, hx.rows, List.mem_append]
        rintro (h1 | h1)
        · exact hkd.2 h1
        · rw [List.nodup_append] at hnd
          exact hnd.2.2 k h1 k (by rw [← hpre]; simp) rfl
      have hin := inserted_new h x.store.world rows k (fun j hj => hrdecl j (hrows ▸ hj)) hkd.1 hknew
      have ha : S.advance (jobs n) x.store (x.phase n) = (⟨some (rows ++ [k]), x.store.world⟩, .todo ks, [.recorded k]) := by
        rw [hp, Spec.MigServer.advance, ht]
        dsimp only
        rw [hin]
      have hlog : recordedKeys (Spec.MigSystem.turn S jobs x n).log = recordedKeys x.log ++ [k] := by
        simp only [Spec.MigSystem.turn, ha, recordedKeys_append]
        rfl
      have hph : ∀ i, (Spec.MigSystem.turn S jobs x n).phase i = if i = n then .todo ks else x.phase i := by
        intro i
        simp only [Spec.MigSystem.turn, ha]
      have hst : (Spec.MigSystem.turn S jobs x n).store = ⟨some (rows ++ [k]), x.store.world⟩ := by
        simp only [Spec.MigSystem.turn, ha]
      refine ⟨ks, ?_, ?_, ?_, ⟨n, hn, ?_⟩, ?_⟩
      · unfold Spec.MigSystem.rows
        rw [hst, hlog, ← List.append_assoc, ← hx.rows, ← hrows]
        rfl
      · rw [hlog, hx.all, ← hpre]
        simp
      · intro i js hi
        rw [hph] at hi
        split at hi
        · exact ⟨_, [], (List.append_nil _).symm, ahead_todo hi⟩
        · obtain ⟨a', pre', h1, h2⟩ := hx.behind i js hi
          refine ⟨a', pre' ++ [k], ?_, ?_⟩
          · rw [hlog, h1, List.append_assoc]
          · rw [h2, ← hpre]
            simp
      · rw [hph, if_pos rfl]
        exact leads_todo _ _
      · intro i
        rw [hph, hst]
        split
        · exact losing_todo rfl _
        · have := hx.losing i
          cases hpi : x.phase i with
          | load => rfl
          | up k ks => rfl
          | record k ks => rfl
          | failed e => rw [hpi] at this; exact this
          | crashed => rw [hpi] at this; exact this
          | ask => trivial
          | create => trivial
          | done => trivial
  | done =>
    exact ⟨todo, quiet x.store .done [] (by rw [hp]; rfl) rfl rfl (fun ks hks => by cases hks) id
      (fun h1 h2 => by rw [h2] at h1; cases h1) (fun _ => trivial) trivial⟩
  | failed e =>
    rw [hp] at hln
    exact ⟨todo, quiet x.store (.failed e) [] (by rw [hp]; rfl) rfl rfl (fun ks hks => by cases hks) id
      (fun h1 h2 => by rw [h2] at h1; cases h1) (fun hl => by rw [hp] at hl; exact hl) hln⟩
  | crashed =>
    rw [hp] at hln
    exact hln.elim

theorem race (hc : Collates S) (h : Smooth S jobs ms) (st : MigStore W)
    (h0 : ∀ k ∈ st.table.getD [], k ∈ Spec.declared ms) (schedule : List Nat) (hs : schedule ≠ []) :
    ∃ todo, Race (S := S) ms (st.table.getD []) schedule (run S jobs (started st) schedule) todo := by
  have key : ∀ (sched : List Nat) (x : MigSystem W), (∀ i ∈ sched, i ∈ schedule) →
      (∃ todo, Race (S := S) ms (st.table.getD []) schedule x todo) →
      ∃ todo, Race (S := S) ms (st.table.getD []) schedule (run S jobs x sched) todo := by
    intro sched
    induction sched with
    | nil => exact fun x _ hx => hx
    | cons n is ih =>
      rintro x hsub ⟨todo, hx⟩
      exact ih _ (fun i hi => hsub i (List.mem_cons_of_mem _ hi)) (hx.turn hc h h0 (hsub n (List.mem_cons_self ..)))
  refine key schedule _ (fun i hi => hi) ⟨_, ⟨?_, rfl, ?_, ?_, ?_⟩⟩
  · simp [started, Spec.MigSystem.rows, recordedKeys]
  · intro i ks hi
    cases hi
  · cases schedule with
    | nil => exact absurd rfl hs
    | cons i is => exact ⟨i, List.mem_cons_self .., trivial⟩
  · exact fun i => trivial

/-- Nothing is refused but what the unique index and the existing table refuse: when all programs have ended, one
has ended without error and everything is recorded; the others have ended without error, or with the
refusal of a record, or with that of the table. -/
theorem C101_someone (hc : Collates S) (h : Smooth S jobs ms) (st : MigStore W)
    (h0 : ∀ k ∈ st.table.getD [], k ∈ Spec.declared ms) (schedule : List Nat) (hs : schedule ≠ [])
    (he : ∀ i ∈ schedule, ((run S jobs (started st) schedule).phase i).ended = true) :
    let x := run S jobs (started st) schedule
    (∃ i ∈ schedule, x.phase i = .done) ∧ (∀ k, k ∈ x.rows ↔ k ∈ Spec.declared ms) ∧
    ∀ i ∈ schedule, x.phase i = .done ∨ (∃ k, x.phase i = .failed (S.duplicate k)) ∨ x.phase i = .failed S.hasTable := by
  intro x
  obtain ⟨todo, hx⟩ := race hc h st h0 schedule hs
  have hdone : ∃ i ∈ schedule, x.phase i = .done := by
    obtain ⟨i, hi, hl⟩ := hx.leads
    have := he i hi
    refine ⟨i, hi, ?_⟩
    change RaceLeads todo x.store (x.phase i) at hl
    change (x.phase i).ended = true at this
    cases hp : x.phase i with
    | done => rfl
    | failed e => rw [hp] at hl; exact hl.elim
    | crashed => rw [hp] at hl; exact hl.elim
    | ask => rw [hp] at this; cases this
    | create => rw [hp] at this; cases this
    | load => rw [hp] at this; cases this
    | up k ks => rw [hp] at this; cases this
    | record k ks => rw [hp] at this; cases this
  refine ⟨hdone, fun k => ⟨fun hk => ?_, fun hk => ?_⟩, fun i hi => ?_⟩
  · have hr : x.rows = _ := hx.rows
    rw [hr, List.mem_append] at hk
    rcases hk with hk | hk
    · exact h0 k hk
    · have : k ∈ (Spec.declared ms).filter (fun k => decide (k ∉ st.table.getD [])) := by
        rw [hx.all]
        exact List.mem_append_left _ hk
      exact (List.mem_filter.1 this).1
  · obtain ⟨i, -, hi⟩ := hdone
    refine C101_complete hc (fun j a ha => ?_) st (fun a ha => h.short a (h0 a ha)) schedule i hi k ?_
    · rw [h.lists] at ha
      exact h.short a ha
    · rw [h.lists]
      exact hk
  · have hl := hx.losing i
    have := he i hi
    change Losing (S := S) x.store (x.phase i) at hl
    change (x.phase i).ended = true at this
    cases hp : x.phase i with
    | done => exact .inl rfl
    | failed e =>
      rw [hp] at hl
      rcases hl with ⟨k, rfl⟩ | rfl
      · exact .inr (.inl ⟨k, rfl⟩)
      · exact .inr (.inr rfl)
    | crashed => rw [hp] at hl; exact hl.elim
    | ask => rw [hp] at this; cases this
    | create => rw [hp] at this; cases this
    | load => rw [hp] at this; cases this
    | up k ks => rw [hp] at this; cases this
    | record k ks => rw [hp] at this; cases this

end

/-! ### where it goes wrong, and cases -/

namespace C101ex

open C69ex (server sqlOf v1 ci)

def ms : List MigList := [⟨v1, [['a'], ['b']]⟩]
def job : MigJob := ⟨ms, sqlOf⟩
def jobs : Nat → MigJob := fun _ => job
def S0 : MigServer (List Str) := server false

/-- there is a table, nothing is recorded. -/
def st0 : MigStore (List Str) := ⟨some [], []⟩
/-- there is no table. -/
def st1 : MigStore (List Str) := ⟨none, []⟩

/-- both read the table; the first gets through. -/
def both : List Nat := [0, 1, 0, 1, 0, 1, 0, 1, 0, 0]
/-- both see that there is no table. -/
def creating : List Nat := [0, 1, 0, 1, 0, 0, 0, 0, 0]

theorem fairJob (i : Nat) : FairJob (jobs i) := by
  refine ⟨⟨List.pairwise_singleton _ _, fun m hm => ?_⟩, fun k hk => ?_, fun k hk => ?_⟩
  · rw [show (jobs i).lists = ms from rfl] at hm
    simp only [ms, List.mem_singleton] at hm
    subst hm
    decide
  · have : k = (v1, ['a']) ∨ k = (v1, ['b']) := by
      simpa [jobs, job, ms, Spec.declared] using hk
    show Foreign (sqlOf k)
    unfold Foreign
    rcases this with rfl | rfl <;> decide +kernel
  · have : k = (v1, ['a']) ∨ k = (v1, ['b']) := by
      simpa [jobs, job, ms, Spec.declared] using hk
    unfold Plain
    rcases this with rfl | rfl <;> decide +kernel

end C101ex

open C101ex in
/-- Two programs: the migration `a` takes effect twice; the first records it and gets through, the second is
told that it is recorded already, after the fact. (On their connections: the one returns `Ok`, the other the
error.) -/
theorem C101_twice_violated :
    let x := run S0 jobs (started st0) both
    FairMig S0 ∧ Collates S0 ∧ (∀ i, FairJob (jobs i)) ∧
      x.store.table = some [(C69ex.v1, ['a']), (C69ex.v1, ['b'])] ∧
      x.store.world = ["up a".toList, "up a".toList, "up b".toList] ∧
      x.phase 0 = .done ∧ x.phase 1 = .failed ⟨1062, "23000".toList, "dup".toList⟩ ∧
      (0, .took (C69ex.v1, ['a'])) ∈ x.log ∧ (1, .took (C69ex.v1, ['a'])) ∈ x.log ∧
      ∀ debug fp downSql, ∃ cmds sent, S0.talkEach st0 cmds = some (x.store, sent) ∧ ∀ c d : Conn,
        MigRest S0 c (rxOf (sent 0)) → MigRest S0 d (rxOf (sent 1)) →
        (migrateUp debug fp C69ex.sqlOf downSql ms c).1 = .ok () ∧
        (migrateUp debug fp C69ex.sqlOf downSql ms d).1 =
          .err (migRefusal S0 ⟨1062, "23000".toList, "dup".toList⟩) := by
  intro x
  have h : x.store.table = some [(C69ex.v1, ['a']), (C69ex.v1, ['b'])] ∧
      x.store.world = ["up a".toList, "up a".toList, "up b".toList] ∧
      x.phase 0 = .done ∧ x.phase 1 = .failed ⟨1062, "23000".toList, "dup".toList⟩ ∧
      (0, .took (C69ex.v1, ['a'])) ∈ x.log ∧ (1, .took (C69ex.v1, ['a'])) ∈ x.log := by
    decide +kernel
  refine ⟨C69ex.fair _, C69ex.collates _, fairJob, h.1, h.2.1, h.2.2.1, h.2.2.2.1, h.2.2.2.2.1, h.2.2.2.2.2, ?_⟩
  intro debug fp downSql
  obtain ⟨cmds, sent, h1, h2⟩ := C101_run S0 jobs (C69ex.fair _) (C69ex.collates _) debug fp downSql fairJob st0
    (by intro k hk; cases hk) both
  refine ⟨cmds, sent, h1, fun c d hc hd => ⟨?_, ?_⟩⟩
  · exact (h2 0 c [] (by rw [List.append_nil]; exact hc)).2.2.1 h.2.2.1
  · exact (h2 1 d [] (by rw [List.append_nil]; exact hd)).2.2.2 _ h.2.2.2.1

open C101ex in
/-- Two programs on an empty database: both see that there is no table, one of them fails to create it. -/
theorem C101_create_violated :
    let x := run S0 jobs (started st1) creating
    x.store.table = some [(C69ex.v1, ['a']), (C69ex.v1, ['b'])] ∧ x.store.world = ["up a".toList, "up b".toList] ∧
      x.phase 0 = .done ∧ x.phase 1 = .failed S0.hasTable := by
  decide +kernel

namespace C101ex

open C69ex (sqlOf v1)

/-- the second program starts when the first has recorded `a`, and is faster. -/
def overtaken : List Nat := [0, 0, 0, 0, 1, 1, 1, 1, 0, 0]

example :
    let x := run S0 jobs (started st0) overtaken
    x.phase 0 = .failed ⟨1062, "23000".toList, "dup".toList⟩ ∧ x.phase 1 = .done ∧
    x.log = [(0, .read []), (0, .took (C69ex.v1, ['a'])), (0, .recorded (C69ex.v1, ['a'])),
      (1, .read [(C69ex.v1, ['a'])]), (1, .took (C69ex.v1, ['b'])), (1, .recorded (C69ex.v1, ['b'])),
      (0, .took (C69ex.v1, ['b']))] := by
  decide +kernel

/-- one after the other. -/
example :
    let x := run S0 jobs (started st1) [0, 0, 0, 0, 0, 0, 0, 1, 1]
    x.phase 0 = .done ∧ x.phase 1 = .done ∧ x.store.world = ["up a".toList, "up b".toList] := by
  decide +kernel

/-- a program with fewer migrations than are recorded. -/
example : (run S0 (fun i => if i = 0 then job else ⟨[], sqlOf⟩) (started st0) [0, 0, 0, 0, 1, 1]).phase 1 = .crashed := by
  decide +kernel

/-- the conditions of `C101_someone`, for programs that are not refused. -/
example : Smooth S0 jobs ms := by
  have hd : ∀ k, k ∈ Spec.declared ms → k = (v1, ['a']) ∨ k = (v1, ['b']) := by
    intro k hk
    simpa [ms, Spec.declared] using hk
  refine ⟨(fairJob 0).proper, fun _ => rfl, fun k hk => ?_, fun a ha b hb hab => ?_, fun i w k hk => ?_, fun _ _ _ => rfl⟩
  · rcases hd k hk with rfl | rfl <;> decide
  · rcases hd a ha with rfl | rfl <;> rcases hd b hb with rfl | rfl <;>
      first | exact absurd rfl hab | decide +kernel
  · refine ⟨w ++ [sqlOf k], ?_⟩
    have : sqlOf k ≠ "boom".toList := by
      rcases hd k hk with rfl | rfl <;> decide +kernel
    show (if sqlOf k = "boom".toList then Except.error ⟨1064, "42000".toList, "no".toList⟩ else .ok (w ++ [sqlOf k])) = _
    rw [if_neg this]

end C101ex

end Verif

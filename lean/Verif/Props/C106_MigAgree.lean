import Verif.Props.C106_MigMany
import Verif.Props.C101_MigRace

/-!
# C106 — do the records agree with what is in effect?

When one program at a time is under way (has read the table and has something left to do), they do; otherwise
they need not, and no program notices.
-/

namespace Verif

open Spec (MigServer MigStore SqlError MigGoal MigMover MigMove MovePhase MoveEvent MoveSystem rowsAfter inEffect)
open Spec.MoveSystem (turn run started)

section
variable {W : Type} {S : MigServer W} {jobs : Nat → MigMover}

/-! ### one at a time -/

/-- one program at most is between reading the table and its end. -/
def OneUnderway (x : MoveSystem W) : Prop :=
  ∀ i j, (x.phase i).underway = true → (x.phase j).underway = true → i = j

/-- what holds while one program at a time is under way. -/
structure InStep (rows0 : List MigKey) (x : MoveSystem W) : Prop where
  agree : ∀ k, (∀ i m ms, x.phase i = .note m ms → m.2 ≠ k) →
    (k ∈ x.rows ↔ inEffect (decide (k ∈ rows0)) k x.log = true)
  noting : ∀ i m ms, x.phase i = .note m ms → inEffect (decide (m.2 ∈ rows0)) m.2 x.log = m.1
  ahead : ∀ i m ms, x.phase i = .act m ms ∨ x.phase i = .note m ms → ((m :: ms).map (·.2)).Nodup ∧
    ∀ m' ∈ m :: ms, (m'.2 ∈ x.rows ↔ m'.1 = false)

theorem underway_act {p : MovePhase} {m : MigMove} {ms : List MigMove} (h : p = .act m ms ∨ p = .note m ms) :
    p.underway = true := by
  rcases h with rfl | rfl <;> rfl

theorem todo_note (ms : List MigMove) (m : MigMove) (ms' : List MigMove) : MovePhase.todo ms ≠ .note m ms' := by
  cases ms <;> exact fun h => by cases h

theorem InStep.turn (hc : Collates S) (hp : ∀ i, Proper (jobs i).lists) (hl : FitNames jobs) {rows0 : List MigKey}
    {x : MoveSystem W} (hI : MoveInv S jobs rows0 x) (h : InStep rows0 x) (n : Nat) (hone : OneUnderway x)
    (hnf : ∀ e, (turn S jobs x n).phase n ≠ .failed e) :
    InStep rows0 (turn S jobs x n) := by
  have ht := turned S (jobs n) x.store (x.phase n)
  have hlog : (Spec.MoveSystem.turn S jobs x n).log =
      x.log ++ (S.moveOn (jobs n) x.store (x.phase n)).2.2.map fun e => (n, e) := rfl
  have htab : (Spec.MoveSystem.turn S jobs x n).rows = (S.moveOn (jobs n) x.store (x.phase n)).1.table.getD [] := rfl
  have hph := phase_turn (S := S) (jobs := jobs) x n
  have hpn := hI.ok.phase n
  have hsound : S.Sound (x.store.table.getD []) := hI.ok.store
  have hxrows : x.rows = x.store.table.getD [] := rfl
  generalize S.moveOn (jobs n) x.store (x.phase n) = y at ht hlog htab hph
  generalize hpe : x.phase n = p at ht hpn
  cases ht with
  | @quiet _ p' t h1 h2 h3 h4 h5 =>
    simp only [List.map_nil, List.append_nil] at hlog
    have hr : (Spec.MoveSystem.turn S jobs x n).rows = x.rows := by rw [htab, hxrows]; exact h1
    have hnu : p.underway = false := by
      cases hu : p.underway with
      | false => rfl
      | true =>
        obtain ⟨e, he⟩ := h5 hu
        refine absurd ?_ (hnf e)
        rw [hph, if_pos rfl]
        exact he
    have hsame : ∀ i m ms, ((Spec.MoveSystem.turn S jobs x n).phase i = .act m ms ↔ x.phase i = .act m ms) ∧
        ((Spec.MoveSystem.turn S jobs x n).phase i = .note m ms ↔ x.phase i = .note m ms) := by
      intro i m ms
      rw [hph]
      split
      · rename_i e
        subst e
        rw [hpe]
        dsimp only
        constructor <;> constructor <;> intro hh <;> subst hh <;> first | cases h2 | cases hnu
      · exact ⟨Iff.rfl, Iff.rfl⟩
    refine ⟨fun k hk => ?_, fun i m ms hi => ?_, fun i m ms hi => ?_⟩
    · rw [hr, hlog]
      exact h.agree k fun i m ms hi => hk i m ms ((hsame i m ms).2.2 hi)
    · rw [hlog]
      exact h.noting i m ms ((hsame i m ms).2.1 hi)
    · rw [hr]
      exact h.ahead i m ms (hi.imp (hsame i m ms).1.1 (hsame i m ms).2.1)
  | @read rows h1 h2 =>
    simp only [List.map_cons, List.map_nil] at hlog
    have hr : (Spec.MoveSystem.turn S jobs x n).rows = x.rows := htab
    have hef : ∀ b k, inEffect b k (Spec.MoveSystem.turn S jobs x n).log = inEffect b k x.log := by
      intro b k
      rw [hlog, inEffect_append]
      rfl
    have hnote : ∀ i m ms, (Spec.MoveSystem.turn S jobs x n).phase i = .note m ms ↔ x.phase i = .note m ms := by
      intro i m ms
      rw [hph]
      split
      · rename_i e
        subst e
        rw [hpe]
        exact ⟨fun hh => absurd hh (todo_note _ _ _), fun hh => by cases hh⟩
      · exact Iff.rfl
    refine ⟨fun k hk => ?_, fun i m ms hi => ?_, fun i m ms hi => ?_⟩
    · rw [hr, hef]
      exact h.agree k fun i m ms hi => hk i m ms ((hnote i m ms).2 hi)
    · rw [hef]
      exact h.noting i m ms ((hnote i m ms).1 hi)
    · rw [hr]
      rw [hph] at hi
      split at hi
      · rw [← todo_ahead hi]
        refine ⟨plan_nodup (hp n) rows, fun m' hm' => ?_⟩
        rw [hxrows, h1]
        obtain ⟨-, ⟨e, -, hm⟩ | ⟨e, -, hm⟩⟩ := of_mem_plan hm'
        · rw [e]; simp [hm]
        · rw [e]; simp [hm]
      · exact h.ahead i m ms hi
  | @unknown rows h1 h2 =>
    simp only [List.map_cons, List.map_nil] at hlog
    have hr : (Spec.MoveSystem.turn S jobs x n).rows = x.rows := htab
    have hef : ∀ b k, inEffect b k (Spec.MoveSystem.turn S jobs x n).log = inEffect b k x.log := by
      intro b k
      rw [hlog, inEffect_append]
      rfl
    have hsame : ∀ i m ms, ((Spec.MoveSystem.turn S jobs x n).phase i = .act m ms ↔ x.phase i = .act m ms) ∧
        ((Spec.MoveSystem.turn S jobs x n).phase i = .note m ms ↔ x.phase i = .note m ms) := by
      intro i m ms
      rw [hph]
      split
      · rename_i e
        subst e
        rw [hpe]
        dsimp only
        constructor <;> constructor <;> intro hh <;> cases hh
      · exact ⟨Iff.rfl, Iff.rfl⟩
    refine ⟨fun k hk => ?_, fun i m ms hi => ?_, fun i m ms hi => ?_⟩
    · rw [hr, hef]
      exact h.agree k fun i m ms hi => hk i m ms ((hsame i m ms).2.2 hi)
    · rw [hef]
      exact h.noting i m ms ((hsame i m ms).2.1 hi)
    · rw [hr]
      exact h.ahead i m ms (hi.imp (hsame i m ms).1.1 (hsame i m ms).2.1)
  | @took m0 ms0 w h1 =>
    simp only [List.map_cons, List.map_nil] at hlog
    have hr : (Spec.MoveSystem.turn S jobs x n).rows = x.rows := htab
    have hef : ∀ b k, inEffect b k (Spec.MoveSystem.turn S jobs x n).log =
        if m0.2 = k then m0.1 else inEffect b k x.log := by
      intro b k
      rw [hlog, inEffect_append]
      rfl
    have honly : ∀ i m ms, x.phase i ≠ .note m ms := by
      intro i m ms hi
      have := hone i n (underway_act (.inr hi)) (underway_act (.inl hpe))
      subst this
      rw [hpe] at hi
      cases hi
    have hmine : (Spec.MoveSystem.turn S jobs x n).phase n = .note m0 ms0 := by rw [hph, if_pos rfl]
    refine ⟨fun k hk => ?_, fun i m ms hi => ?_, fun i m ms hi => ?_⟩
    · rw [hr, hef, if_neg (hk n m0 ms0 hmine)]
      exact h.agree k fun i m ms hi => absurd hi (honly i m ms)
    · rw [hph] at hi
      split at hi
      · cases hi
        rw [hef, if_pos rfl]
      · exact absurd hi (honly i m ms)
    · rw [hr]
      rw [hph] at hi
      split at hi
      · rcases hi with hi | hi <;> cases hi
        exact h.ahead n _ _ (.inl hpe)
      · exact h.ahead i m ms hi
  | @recorded k0 ms0 rows rows' h1 h2 =>
    simp only [List.map_cons, List.map_nil] at hlog
    obtain ⟨rfl, hcl⟩ := inserted_short (hl n _ (hpn (true, k0) (List.mem_cons_self ..)).1) h2
    have hr : ∀ k, k ∈ (Spec.MoveSystem.turn S jobs x n).rows ↔ k ∈ x.rows ∨ k = k0 := by
      intro k
      rw [htab, hxrows, h1]
      simp
    have hef : ∀ b k, inEffect b k (Spec.MoveSystem.turn S jobs x n).log = inEffect b k x.log := by
      intro b k
      rw [hlog, inEffect_append]
      rfl
    have hothers : ∀ i, i ≠ n → (x.phase i).underway = false := by
      intro i hi
      cases hu : (x.phase i).underway with
      | false => rfl
      | true => exact absurd (hone i n hu (underway_act (.inr hpe))) hi
    have hnone : ∀ i m ms, (Spec.MoveSystem.turn S jobs x n).phase i ≠ .note m ms := by
      intro i m ms hi
      rw [hph] at hi
      split at hi
      · exact todo_note _ _ _ hi
      · rename_i hne
        have := hothers i hne
        rw [hi] at this
        cases this
    obtain ⟨hnd, hmem⟩ := h.ahead n _ _ (.inr hpe)
    refine ⟨fun k hk => ?_, fun i m ms hi => absurd hi (hnone i m ms), fun i m ms hi => ?_⟩
    · rw [hr, hef]
      by_cases hkk : k = k0
      · subst hkk
        have := h.noting n _ _ hpe
        dsimp only at this
        rw [this]
        simp
      · rw [← h.agree k fun i m ms hi => ?_]
        · exact ⟨fun h => h.resolve_right hkk, .inl⟩
        · by_cases hin : i = n
          · subst hin
            rw [hpe] at hi
            cases hi
            exact Ne.symm hkk
          · have := hothers i hin
            rw [hi] at this
            cases this
    · rw [hph] at hi
      split at hi
      · have hms := todo_ahead hi
        rw [← hms]
        rw [List.map_cons, List.nodup_cons] at hnd
        refine ⟨hnd.2, fun m' hm' => ?_⟩
        rw [hr, ← hmem m' (List.mem_cons_of_mem _ hm')]
        refine ⟨fun h => h.resolve_right fun e => hnd.1 ?_, .inl⟩
        exact List.mem_map.2 ⟨m', hm', e⟩
      · rename_i hne
        have := hothers i hne
        rw [underway_act hi] at this
        cases this
  | @removed k0 ms0 rows h1 =>
    simp only [List.map_cons, List.map_nil] at hlog
    obtain ⟨hnd, hmem⟩ := h.ahead n _ _ (.inr hpe)
    have hk0 : k0 ∈ rows := by
      have := (hmem (false, k0) (List.mem_cons_self ..)).2 rfl
      rw [hxrows, h1] at this
      exact this
    rw [h1] at hsound
    have hr : ∀ k, k ∈ (Spec.MoveSystem.turn S jobs x n).rows ↔ k ∈ x.rows ∧ k ≠ k0 := by
      intro k
      rw [htab, hxrows, h1]
      simp only [Option.getD_some, List.mem_filter, Bool.not_eq_true']
      refine and_congr_right fun hk => ⟨fun h e => ?_, fun hne => ?_⟩
      · rw [e, clash_self hc] at h
        cases h
      · cases hcl : S.clash k k0 with
        | false => rfl
        | true =>
          exfalso
          have hsym : ∀ a ∈ rows, ∀ b ∈ rows, a ≠ b → S.clash a b = false := by
            have hpw : rows.Pairwise fun a b => S.clash a b = false := hsound.1
            intro a ha b hb hab
            have : Std.Symm fun a b => S.clash a b = false := ⟨fun a b h => by rw [clash_comm hc]; exact h⟩
            exact hpw.forall ha hb hab
          rw [hsym k hk k0 hk0 hne] at hcl
          cases hcl
    have hef : ∀ b k, inEffect b k (Spec.MoveSystem.turn S jobs x n).log = inEffect b k x.log := by
      intro b k
      rw [hlog, inEffect_append]
      rfl
    have hothers : ∀ i, i ≠ n → (x.phase i).underway = false := by
      intro i hi
      cases hu : (x.phase i).underway with
      | false => rfl
      | true => exact absurd (hone i n hu (underway_act (.inr hpe))) hi
    have hnone : ∀ i m ms, (Spec.MoveSystem.turn S jobs x n).phase i ≠ .note m ms := by
      intro i m ms hi
      rw [hph] at hi
      split at hi
      · exact todo_note _ _ _ hi
      · rename_i hne
        have := hothers i hne
        rw [hi] at this
        cases this
    refine ⟨fun k hk => ?_, fun i m ms hi => absurd hi (hnone i m ms), fun i m ms hi => ?_⟩
    · rw [hr, hef]
      by_cases hkk : k = k0
      · subst hkk
        have := h.noting n _ _ hpe
        dsimp only at this
        rw [this]
        simp
      · rw [← h.agree k fun i m ms hi => ?_]
        · exact ⟨fun h => h.1, fun h => ⟨h, hkk⟩⟩
        · by_cases hin : i = n
          · subst hin
            rw [hpe] at hi
            cases hi
            exact Ne.symm hkk
          · have := hothers i hin
            rw [hi] at this
            cases this
    · rw [hph] at hi
      split at hi
      · have hms := todo_ahead hi
        rw [← hms]
        rw [List.map_cons, List.nodup_cons] at hnd
        refine ⟨hnd.2, fun m' hm' => ?_⟩
        rw [hr, ← hmem m' (List.mem_cons_of_mem _ hm')]
        refine ⟨fun h => h.1, fun h => ⟨h, fun e => hnd.1 ?_⟩⟩
        exact List.mem_map.2 ⟨m', hm', e⟩
      · rename_i hne
        have := hothers i hne
        rw [underway_act hi] at this
        cases this

theorem move_snoc (x : MoveSystem W) (is : List Nat) (i : Nat) :
    run S jobs x (is ++ [i]) = turn S jobs (run S jobs x is) i := by
  unfold run
  rw [List.foldl_append]
  rfl

/-- If at any time one program at most is under way, and none fails: when none is under way any more, a
migration is recorded exactly if the last statement of it that took effect applied it (or there was none and
it was recorded at the beginning).
Missing: programs under way at the same time (`C106_agree_violated`), programs that fail (C69: a statement that
took effect and was not recorded). -/
theorem C106_agree_partial (hc : Collates S) (hp : ∀ i, Proper (jobs i).lists) (hl : FitNames jobs) (st : MigStore W)
    (h0 : S.Sound (st.table.getD [])) (schedule : List Nat)
    (hone : ∀ s, s <+: schedule → OneUnderway (run S jobs (started st) s)) :
    let x := run S jobs (started st) schedule
    (∀ i e, x.phase i ≠ .failed e) → (∀ i, (x.phase i).underway = false) →
      ∀ k, k ∈ x.rows ↔ inEffect (decide (k ∈ st.table.getD [])) k x.log = true := by
  intro x hnf hnu k
  have key : ∀ s, s <+: schedule → InStep (st.table.getD []) (run S jobs (started st) s) := by
    intro s
    induction s using List.reverseRecOn with
    | nil =>
      intro _
      refine ⟨fun k _ => ?_, fun i m ms hi => ?_, fun i m ms hi => ?_⟩
      · show k ∈ st.table.getD [] ↔ decide _ = true
        rw [decide_eq_true_iff]
      · cases hi
      · rcases hi with hi | hi <;> cases hi
    | append_singleton s n ih =>
      intro hs
      have hs' : s <+: schedule := (List.prefix_append s [n]).trans hs
      have hI := moveInv hc hl st h0 s
      have h1 := ih hs'
      rw [move_snoc]
      refine h1.turn hc hp hl hI n (hone s hs') fun e he => ?_
      obtain ⟨s2, hs2⟩ := hs
      refine hnf n e ?_
      have : x = run S jobs (run S jobs (started st) (s ++ [n])) s2 := by
        show run S jobs (started st) schedule = _
        rw [← hs2]
        unfold run
        rw [List.foldl_append]
      rw [this, move_snoc, move_stays S jobs _ _ (by rw [he]; rfl)]
      exact he
  refine (key schedule (List.prefix_refl _)).agree k fun i m ms hi => ?_
  have := hnu i
  rw [hi] at this
  cases this

/-! ### failing -/

/-- a program that has read that there is a table, or has created it, finds it. -/
theorem move_table (st : MigStore W) (schedule : List Nat) :
    let x := run S jobs (started st) schedule
    (st.table.isSome = true → x.store.table.isSome = true) ∧
    ∀ i, ((x.phase i).underway = true ∨ x.phase i = .load → x.store.table.isSome = true) ∧
      (x.phase i = .create → st.table = none) := by
  refine move_always S jobs (P := fun x => (st.table.isSome = true → x.store.table.isSome = true) ∧
    ∀ i, ((x.phase i).underway = true ∨ x.phase i = .load → x.store.table.isSome = true) ∧
      (x.phase i = .create → st.table = none)) ?_ (fun x n hx => ?_) schedule
  · refine ⟨id, fun i => ⟨fun h => ?_, fun h => ?_⟩⟩
    · rcases h with h | h <;> cases h
    · cases h
  · obtain ⟨h1, h2⟩ := hx
    have hst : (turn S jobs x n).store = (S.moveOn (jobs n) x.store (x.phase n)).1 := rfl
    have hkeep : x.store.table.isSome = true → (turn S jobs x n).store.table.isSome = true := by
      intro h
      rw [hst]
      have ht := turned S (jobs n) x.store (x.phase n)
      cases hpe : x.phase n with
      | create =>
        rw [Spec.MigServer.moveOn]
        cases hs : x.store.table with
        | none => rfl
        | some rows => dsimp only; rw [hs]; rfl
      | ask => exact h
      | load =>
        rw [Spec.MigServer.moveOn]
        cases hs : x.store.table with
        | none => rw [hs] at h; cases h
        | some rows => dsimp only; rw [hs]; rfl
      | act m ms =>
        rw [Spec.MigServer.moveOn]
        cases S.foreign x.store.world ((jobs n).sql m) <;> exact h
      | note m ms =>
        obtain ⟨b, k⟩ := m
        cases b with
        | true =>
          rw [Spec.MigServer.moveOn]
          cases hs : x.store.table with
          | none => rw [hs] at h; cases h
          | some rows =>
            dsimp only
            cases S.inserted x.store.world rows k.1.major.toNat k.1.minor.toNat k.1.patch.toNat k.2 with
            | ok rows' => rfl
            | error e => dsimp only; rw [hs]; rfl
        | false =>
          rw [Spec.MigServer.moveOn]
          cases hs : x.store.table with
          | none => rw [hs] at h; cases h
          | some rows => rfl
      | done => exact h
      | failed e => exact h
      | crashed => exact h
    refine ⟨fun h => hkeep (h1 h), fun i => ?_⟩
    rw [phase_turn]
    split
    · rename_i e
      subst e
      rw [hst]
      cases hpe : x.phase i with
      | ask =>
        simp only [Spec.MigServer.moveOn]
        cases hs : x.store.table.isSome with
        | true => exact ⟨fun _ => rfl, fun h => by cases h⟩
        | false =>
          refine ⟨fun h => ?_, fun _ => ?_⟩
          · rcases h with h | h <;> cases h
          · cases h0 : st.table with
            | none => rfl
            | some rows =>
              have := h1 (by rw [h0]; rfl)
              rw [hs] at this
              cases this
      | create =>
        rw [Spec.MigServer.moveOn]
        cases hs : x.store.table with
        | none => exact ⟨fun _ => rfl, fun h => by cases h⟩
        | some rows => exact ⟨fun _ => by dsimp only; rw [hs]; rfl, fun h => by cases h⟩
      | load =>
        have hk := hkeep ((h2 i).1 (.inr hpe))
        rw [hst, hpe] at hk
        refine ⟨fun _ => hk, fun h => ?_⟩
        rw [Spec.MigServer.moveOn] at h
        cases hs : x.store.table with
        | none => rw [hs] at h; cases h
        | some rows =>
          rw [hs] at h
          dsimp only at h
          split at h
          · cases hpl : (jobs i).plan rows <;> rw [hpl] at h <;> cases h
          · cases h
      | act m ms =>
        have hk := hkeep ((h2 i).1 (.inl (by rw [hpe]; rfl)))
        rw [hst, hpe] at hk
        refine ⟨fun _ => hk, fun h => ?_⟩
        rw [Spec.MigServer.moveOn] at h
        cases hs : S.foreign x.store.world ((jobs i).sql m) <;> rw [hs] at h <;> cases h
      | note m ms =>
        have hk := hkeep ((h2 i).1 (.inl (by rw [hpe]; rfl)))
        rw [hst, hpe] at hk
        refine ⟨fun _ => hk, fun h => ?_⟩
        have ht := turned S (jobs i) x.store (.note m ms)
        generalize S.moveOn (jobs i) x.store (.note m ms) = y at ht h
        cases ht with
        | quiet _ _ _ _ h5 =>
          obtain ⟨e, he⟩ := h5 rfl
          dsimp only at h
          rw [he] at h
          cases h
        | @recorded k ms =>
          cases ms <;> cases h
        | @removed k ms =>
          cases ms <;> cases h
      | done => exact ⟨fun h => (by rcases h with h | h <;> cases h), fun h => by cases h⟩
      | failed e => exact ⟨fun h => (by rcases h with h | h <;> cases h), fun h => by cases h⟩
      | crashed => exact ⟨fun h => (by rcases h with h | h <;> cases h), fun h => by cases h⟩
    · exact ⟨fun h => hkeep ((h2 i).1 h), (h2 i).2⟩

/-- Why a program fails: it found no table, and when it wanted to create one there was one; or a statement of
one of its migrations was refused; or a record was refused.  So a program that only reverts, whose own statements are
not refused, does not fail if there is a table at the beginning: that others have reverted the same, or
removed the record, goes unnoticed. -/
theorem C106_fails (hc : Collates S) (hl : FitNames jobs) (st : MigStore W) (h0 : S.Sound (st.table.getD []))
    (schedule : List Nat) (i : Nat) (e : SqlError) (hf : (run S jobs (started st) schedule).phase i = .failed e) :
    (st.table = none ∧ e = S.hasTable) ∨
    (∃ m w, Aim (jobs i) m ∧ S.foreign w ((jobs i).sql m) = .error e) ∨
    ∃ k w rows, Aim (jobs i) (true, k) ∧ S.Sound rows ∧
      S.inserted w rows k.1.major.toNat k.1.minor.toNat k.1.patch.toNat k.2 = .error e := by
  let Good : MovePhase → Prop := fun p => ∀ e, p = .failed e → (st.table = none ∧ e = S.hasTable) ∨
    (∃ m w, Aim (jobs i) m ∧ S.foreign w ((jobs i).sql m) = .error e) ∨
    ∃ k w rows, Aim (jobs i) (true, k) ∧ S.Sound rows ∧
      S.inserted w rows k.1.major.toNat k.1.minor.toNat k.1.patch.toNat k.2 = .error e
  have htodo : ∀ ms, Good (.todo ms) := by
    intro ms e he
    cases ms <;> cases he
  have key : Good ((run S jobs (started st) schedule).phase i) := by
    clear hf
    induction schedule using List.reverseRecOn with
    | nil => intro e he; cases he
    | append_singleton s n ih =>
      rw [move_snoc, phase_turn]
      split
      · rename_i heq
        subst heq
        have hI := moveInv hc hl st h0 s
        obtain ⟨t1, t2⟩ := move_table (S := S) (jobs := jobs) st s
        have hpn := hI.ok.phase i
        have hso : S.Sound ((run S jobs (started st) s).store.table.getD []) := hI.ok.store
        have t3 := t2 i
        generalize run S jobs (started st) s = x at *
        cases hpe : x.phase i with
        | ask =>
          intro e he
          simp only [Spec.MigServer.moveOn] at he
          split at he <;> cases he
        | create =>
          intro e he
          rw [Spec.MigServer.moveOn] at he
          cases hs : x.store.table with
          | none => rw [hs] at he; cases he
          | some rows =>
            rw [hs] at he
            cases he
            exact .inl ⟨t3.2 hpe, rfl⟩
        | load =>
          have := t3.1 (.inr hpe)
          rw [Spec.MigServer.moveOn]
          cases hs : x.store.table with
          | none => rw [hs] at this; cases this
          | some rows =>
            dsimp only
            split
            · exact htodo _
            · intro e he; cases he
        | act m ms =>
          rw [hpe] at hpn
          intro e he
          rw [Spec.MigServer.moveOn] at he
          cases hs : S.foreign x.store.world ((jobs i).sql m) with
          | ok w => rw [hs] at he; cases he
          | error e' =>
            rw [hs] at he
            cases he
            exact .inr (.inl ⟨m, _, hpn m (List.mem_cons_self ..), hs⟩)
        | note m ms =>
          rw [hpe] at hpn
          have hsome := t3.1 (.inl (by rw [hpe]; rfl))
          obtain ⟨b, k⟩ := m
          cases hs : x.store.table with
          | none => rw [hs] at hsome; cases hsome
          | some rows =>
            rw [hs] at hso
            cases b with
            | true =>
              rw [Spec.MigServer.moveOn, hs]
              dsimp only
              cases hi : S.inserted x.store.world rows k.1.major.toNat k.1.minor.toNat k.1.patch.toNat k.2 with
              | ok rows' => exact htodo _
              | error e' =>
                intro e he
                cases he
                exact .inr (.inr ⟨k, _, rows, hpn (true, k) (List.mem_cons_self ..), hso, hi⟩)
            | false =>
              rw [Spec.MigServer.moveOn, hs]
              exact htodo _
        | done => intro e he; cases he
        | failed e' => rw [hpe] at ih; exact ih
        | crashed => intro e he; cases he
      · exact ih
  exact key e hf

end

/-! ### where it goes wrong, and cases -/

namespace C106ex

open C69ex (server sqlOf v1)

def downOf (k : MigKey) : Str := "down ".toList ++ k.2
def ms : List MigList := [⟨v1, [['a'], ['b']]⟩]
/-- below all migrations. -/
def v0 : Version := ⟨0, 0, 0⟩
def mover (g : MigGoal) : MigMover := ⟨ms, sqlOf, downOf, g⟩
def only : List MigList := [⟨v1, [['a']]⟩]
def S0 : MigServer (List Str) := server false
def a : MigKey := (v1, ['a'])
def b : MigKey := (v1, ['b'])

/-- there is a table, nothing is recorded. -/
def st0 : MigStore (List Str) := ⟨some [], []⟩
/-- the first is applied. -/
def st1 : MigStore (List Str) := ⟨some [a], ["up a".toList]⟩

theorem fairMover (ms' : List MigList) (hms : ms' = ms ∨ ms' = only) (g : MigGoal) :
    FairMover ⟨ms', sqlOf, downOf, g⟩ ∧ ∀ k ∈ Spec.declared ms', k.2.length ≤ 255 := by
  have hd : ∀ k ∈ Spec.declared ms', k = a ∨ k = b := by
    intro k hk
    rcases hms with rfl | rfl
    · simpa [ms, Spec.declared, a, b] using hk
    · exact .inl (by simpa [only, Spec.declared, a] using hk)
  refine ⟨⟨?_, fun k hk => ?_, fun k hk => ?_, fun k hk => ?_⟩, fun k hk => ?_⟩
  · rcases hms with rfl | rfl
    · exact ⟨List.pairwise_singleton _ _, show ∀ m ∈ ms, m.names.Nodup by decide⟩
    · exact ⟨List.pairwise_singleton _ _, show ∀ m ∈ only, m.names.Nodup by decide⟩
  · show Foreign (sqlOf k)
    unfold Foreign
    rcases hd k hk with rfl | rfl <;> decide +kernel
  · show Foreign (downOf k)
    unfold Foreign
    rcases hd k hk with rfl | rfl <;> decide +kernel
  · unfold Plain
    rcases hd k hk with rfl | rfl <;> decide +kernel
  · rcases hd k hk with rfl | rfl <;> decide

/-- two that apply `a`, one that moves below it. -/
def three : Nat → MigMover := fun i => ⟨only, sqlOf, downOf, if i = 2 then .goto v0 else .up⟩
/-- the two read; one is through; the third reads, the other applies again, the third reverts, the other
records. -/
def late : List Nat := [0, 0, 1, 1, 0, 0, 2, 2, 1, 2, 2, 1]

end C106ex

open C106ex in
/-- Three programs, all of which end without error: `a` is recorded, though what took effect last is that it was
reverted.  (The migration is skipped from now on.) -/
theorem C106_agree_violated :
    let x := run S0 three (started st0) late
    FairMig S0 ∧ Collates S0 ∧ (∀ i, FairMover (three i)) ∧ FitNames three ∧
      x.store.table = some [a] ∧ x.store.world = ["up a".toList, "up a".toList, "down a".toList] ∧
      inEffect false a x.log = false ∧ (∀ i < 3, x.phase i = .done) ∧
      ∀ debug fp, ∃ cmds sent, S0.talkEach st0 cmds = some (x.store, sent) ∧ ∀ i < 3, ∀ c : Conn,
        MigRest S0 c (rxOf (sent i)) → (migrateTo debug fp (three i) c).1 = .ok () := by
  intro x
  have h : x.store.table = some [a] ∧ x.store.world = ["up a".toList, "up a".toList, "down a".toList] ∧
      inEffect false a x.log = false ∧ ∀ i < 3, x.phase i = .done := by
    decide +kernel
  have hf : ∀ i, FairMover (three i) := fun i => (fairMover only (.inr rfl) _).1
  refine ⟨C69ex.fair _, C69ex.collates _, hf, fun i => (fairMover only (.inr rfl) .up).2, h.1, h.2.1, h.2.2.1, h.2.2.2,
    fun debug fp => ?_⟩
  obtain ⟨cmds, sent, h1, h2⟩ := C106_run S0 three (C69ex.fair _) (C69ex.collates _) debug fp hf st0
    ⟨List.Pairwise.nil, fun k hk => by cases hk⟩ late
  refine ⟨cmds, sent, h1, fun i hi c hc => ?_⟩
  exact (h2 i c [] (by rw [List.append_nil]; exact hc)).2.2.1 (h.2.2.2 i hi)

namespace C106ex

/-- one goes up, one moves below everything. -/
def two : Nat → MigMover := fun i => mover (if i = 0 then .up else .goto v0)
/-- both read; the second reverts `a`; the first applies `b`. -/
def crossed : List Nat := [1, 1, 0, 0, 1, 1, 0, 0]
/-- both move below everything. -/
def downs : Nat → MigMover := fun _ => mover (.goto v0)

end C106ex

open C106ex in
/-- Two programs, both of which end without error: afterwards `b` is recorded and in effect, and `a`, which comes
before it, is not.  One after the other, in either order, they leave both or none. -/
theorem C106_goal_violated :
    let x := run S0 two (started st1) crossed
    (∀ i, FairMover (two i)) ∧ x.phase 0 = .done ∧ x.phase 1 = .done ∧ x.store.table = some [b] ∧
      x.store.world = ["up a".toList, "down a".toList, "up b".toList] ∧
      (run S0 two (started st1) [0, 0, 0, 0, 1, 1, 1, 1, 1, 1]).store.table = some [] ∧
      (run S0 two (started st1) [1, 1, 1, 1, 0, 0, 0, 0, 0, 0]).store.table = some [a, b] := by
  refine ⟨fun i => (fairMover ms (.inl rfl) _).1, ?_⟩
  decide +kernel

open C106ex in
/-- Two programs revert the same migration: its statement takes effect twice, and both end without error. -/
theorem C106_twice_violated :
    let x := run S0 downs (started st1) [0, 0, 1, 1, 0, 1, 0, 1]
    (∀ i, FairMover (downs i)) ∧ x.phase 0 = .done ∧ x.phase 1 = .done ∧ x.store.table = some [] ∧
      x.store.world = ["up a".toList, "down a".toList, "down a".toList] ∧
      (0, .took (false, a)) ∈ x.log ∧ (1, .took (false, a)) ∈ x.log := by
  refine ⟨fun i => (fairMover ms (.inl rfl) _).1, ?_⟩
  decide +kernel

namespace C106ex

open C69ex (sqlOf v1)

/-- one after the other: at any time one at most is under way, and the records agree. -/
def calm : List Nat := [0, 1, 0, 0, 0, 0, 0, 1, 1, 1, 1, 1]

example : ∀ s, s <+: calm → OneUnderway (run S0 two (started st0) s) := by
  have h : ∀ n < calm.length + 1, ∀ i < 2, ∀ j < 2, ((run S0 two (started st0) (calm.take n)).phase i).underway = true →
      ((run S0 two (started st0) (calm.take n)).phase j).underway = true → i = j := by decide +kernel
  have ho : ∀ n < calm.length + 1, ∀ i, 2 ≤ i → (run S0 two (started st0) (calm.take n)).phase i = .ask := by
    intro n _ i hi
    have hmem : ∀ m ∈ calm.take n, m ≠ i := by
      intro m hm
      have : ∀ m ∈ calm, m < 2 := by decide
      have := this m (List.mem_of_mem_take hm)
      omega
    generalize calm.take n = l at hmem
    have : ∀ (l : List Nat) (x : MoveSystem (List Str)), (∀ m ∈ l, m ≠ i) → (run S0 two x l).phase i = x.phase i := by
      intro l
      induction l with
      | nil => intro x _; rfl
      | cons m l ih =>
        intro x hl
        rw [move_cons, ih _ fun m hm => hl m (List.mem_cons_of_mem _ hm), phase_turn,
          if_neg (Ne.symm (hl m (List.mem_cons_self ..)))]
    exact this l _ hmem
  intro s hs i j hi hj
  have hn : s.length < calm.length + 1 := by have := hs.length_le; omega
  rw [List.prefix_iff_eq_take.1 hs] at hi hj
  by_cases h1 : i < 2
  · by_cases h2 : j < 2
    · exact h _ hn i h1 j h2 hi hj
    · rw [ho _ hn j (by omega)] at hj
      cases hj
  · rw [ho _ hn i (by omega)] at hi
    cases hi

example :
    let x := run S0 two (started st0) calm.dropLast
    x.phase 0 = .done ∧ x.phase 1 = .note (false, a) [] ∧ x.store.table = some [a] ∧ inEffect false a x.log = false := by
  decide +kernel

example :
    let x := run S0 two (started st0) calm
    x.phase 1 = .done ∧ x.store.table = some [] ∧ inEffect false a x.log = false ∧ inEffect false b x.log = false ∧
    x.log = [(0, .read []), (0, .took (true, a)), (0, .noted (true, a)), (0, .took (true, b)), (0, .noted (true, b)),
      (1, .read [a, b]), (1, .took (false, b)), (1, .noted (false, b)), (1, .took (false, a)), (1, .noted (false, a))] := by
  decide +kernel

/-- programs that move to one version, at the same time: what is above goes, what is missing comes. -/
def same : Nat → MigMover := fun _ =>
  ⟨[⟨v1, [['a']]⟩, ⟨⟨2, 0, 0⟩, [['c']]⟩], sqlOf, downOf, .goto v1⟩

example :
    let x := run S0 same (started ⟨some [(⟨2, 0, 0⟩, ['c'])], []⟩) [0, 0, 1, 1, 0, 0, 1, 1, 0, 0]
    x.phase 0 = .done ∧ x.phase 1 = .failed ⟨1062, "23000".toList, "dup".toList⟩ ∧ x.store.table = some [a] := by
  decide +kernel

end C106ex

end Verif

import Verif.Props.C106_MigAgree

/-!
# C106: what one of several programs does, in which order

To be said of one program among others: it reads the table once and then does what is to be done for these rows,
in the order of the versions, each once; all of it, if it ends without error.
-/

namespace Verif

open Spec (MigServer MigStore SqlError MigMover MigMove MovePhase MoveEvent MoveSystem rowsAfter)
open Spec.MoveSystem (started turn run)

namespace Spec

/-- the moves of program `i` that took effect. -/
def movesOf (i : Nat) (log : List (Nat × MoveEvent)) : List MigMove :=
  log.filterMap fun x =>
    match x.2 with
    | .took m => if x.1 = i then some m else none
    | _ => none

/-- what program `i` has read, each time. -/
def readsOf (i : Nat) (log : List (Nat × MoveEvent)) : List (List MigKey) :=
  log.filterMap fun x =>
    match x.2 with
    | .read rows => if x.1 = i then some rows else none
    | _ => none

end Spec

open Spec (movesOf readsOf)

section

variable {W : Type} {S : MigServer W} {jobs : Nat → MigMover}

/-- where a program is, and what it has done. -/
def Along (j : MigMover) (reads : List (List MigKey)) (did : List MigMove) : MovePhase → Prop
  | .act m ms => ∃ rows, reads = [rows] ∧ j.plan rows = did ++ m :: ms
  | .note m ms => ∃ rows, reads = [rows] ∧ j.plan rows = did ++ ms ∧ m ∈ did
  | .done => ∃ rows, reads = [rows] ∧ j.plan rows = did
  | .failed _ => reads = [] ∧ did = [] ∨ ∃ rows, reads = [rows] ∧ did <+: j.plan rows
  | .crashed => (∃ rows, reads = [rows]) ∧ did = []
  | _ => reads = [] ∧ did = []

theorem along_todo {j : MigMover} {rows : List MigKey} {did ms : List MigMove} (h : j.plan rows = did ++ ms) :
    Along j [rows] did (.todo ms) := by
  cases ms with
  | nil => exact ⟨rows, rfl, by rw [h, List.append_nil]⟩
  | cons m ms => exact ⟨rows, rfl, h⟩

theorem movesOf_append (i : Nat) (a b : List (Nat × MoveEvent)) : movesOf i (a ++ b) = movesOf i a ++ movesOf i b :=
  List.filterMap_append

theorem readsOf_append (i : Nat) (a b : List (Nat × MoveEvent)) : readsOf i (a ++ b) = readsOf i a ++ readsOf i b :=
  List.filterMap_append

theorem along (st : MigStore W) (schedule : List Nat) (i : Nat) :
    let x := run S jobs (started st) schedule
    Along (jobs i) (readsOf i x.log) (movesOf i x.log) (x.phase i) := by
  refine move_always S jobs (P := fun x => Along (jobs i) (readsOf i x.log) (movesOf i x.log) (x.phase i))
    (x := started st) ⟨rfl, rfl⟩ (fun x n hx => ?_) schedule
  have hlog : (turn S jobs x n).log =
      x.log ++ (S.moveOn (jobs n) x.store (x.phase n)).2.2.map fun e => (n, e) := rfl
  rw [phase_turn, hlog, movesOf_append, readsOf_append]
  split
  · rename_i e
    subst e
    cases hpe : x.phase i with
    | ask =>
      rw [hpe] at hx
      simp only [Spec.MigServer.moveOn]
      obtain ⟨h1, h2⟩ := hx
      rw [h1, h2]
      split <;> exact ⟨rfl, rfl⟩
    | create =>
      rw [hpe] at hx
      rw [Spec.MigServer.moveOn]
      obtain ⟨h1, h2⟩ := hx
      rw [h1, h2]
      cases x.store.table with
      | none => exact ⟨rfl, rfl⟩
      | some rows => exact .inl ⟨rfl, rfl⟩
    | load =>
      rw [hpe] at hx
      rw [Spec.MigServer.moveOn]
      obtain ⟨h1, h2⟩ := hx
      rw [h1, h2]
      cases x.store.table with
      | none => exact .inl ⟨rfl, rfl⟩
      | some rows =>
        have e1 : readsOf i [(i, .read rows)] = [rows] := by simp [readsOf]
        have e2 : movesOf i [(i, .read rows)] = [] := by simp [movesOf]
        simp only [List.map_cons, List.map_nil, List.nil_append]
        rw [e1, e2]
        split
        · exact along_todo rfl
        · exact ⟨⟨rows, rfl⟩, rfl⟩
    | act m ms =>
      rw [hpe] at hx
      rw [Spec.MigServer.moveOn]
      obtain ⟨rows, h1, h2⟩ := hx
      rw [h1]
      cases S.foreign x.store.world ((jobs i).sql m) with
      | error e =>
        simp only [List.map_nil]
        refine .inr ⟨rows, rfl, ?_⟩
        rw [h2]
        simp [movesOf]
      | ok w =>
        have e1 : readsOf i [(i, .took m)] = [] := by simp [readsOf]
        have e2 : movesOf i [(i, .took m)] = [m] := by simp [movesOf]
        simp only [List.map_cons, List.map_nil]
        rw [e1, e2]
        exact ⟨rows, rfl, by rw [h2]; simp, List.mem_append_right _ (List.mem_singleton.2 rfl)⟩
    | note m ms =>
      rw [hpe] at hx
      obtain ⟨rows, h1, h2, -⟩ := hx
      rw [h1]
      have hf : ∀ e, Along (jobs i) ([rows] ++ readsOf i []) (movesOf i x.log ++ movesOf i []) (.failed e) :=
        fun e => .inr ⟨rows, rfl, by rw [h2]; simp [movesOf]⟩
      have hn : ∀ m, Along (jobs i) ([rows] ++ readsOf i [(i, .noted m)]) (movesOf i x.log ++ movesOf i [(i, .noted m)])
          (.todo ms) := fun m => by
        have e1 : readsOf i [(i, .noted m)] = [] := by simp [readsOf]
        have e2 : movesOf i [(i, .noted m)] = [] := by simp [movesOf]
        rw [e1, e2, List.append_nil, List.append_nil]
        exact along_todo h2
      obtain ⟨b, k⟩ := m
      cases b with
      | true =>
        rw [Spec.MigServer.moveOn]
        cases x.store.table with
        | none => exact hf _
        | some rows' =>
          dsimp only
          cases S.inserted x.store.world rows' k.1.major.toNat k.1.minor.toNat k.1.patch.toNat k.2 with
          | error e => exact hf _
          | ok rows'' => exact hn _
      | false =>
        rw [Spec.MigServer.moveOn]
        cases x.store.table with
        | none => exact hf _
        | some rows' => exact hn _
    | done => rw [hpe] at hx; rw [moveOn_ended S _ _ _ rfl]; simpa [readsOf, movesOf] using hx
    | failed e => rw [hpe] at hx; rw [moveOn_ended S _ _ _ rfl]; simpa [readsOf, movesOf] using hx
    | crashed => rw [hpe] at hx; rw [moveOn_ended S _ _ _ rfl]; simpa [readsOf, movesOf] using hx
  · rename_i e
    have e1 : ∀ l : List MoveEvent, readsOf i (l.map fun e => (n, e)) = [] := by
      intro l
      unfold readsOf
      rw [List.filterMap_eq_nil_iff]
      intro a ha
      obtain ⟨v, -, rfl⟩ := List.mem_map.1 ha
      cases v <;> simp [Ne.symm e]
    have e2 : ∀ l : List MoveEvent, movesOf i (l.map fun e => (n, e)) = [] := by
      intro l
      unfold movesOf
      rw [List.filterMap_eq_nil_iff]
      intro a ha
      obtain ⟨v, -, rfl⟩ := List.mem_map.1 ha
      cases v <;> simp [Ne.symm e]
    rw [e1, e2, List.append_nil, List.append_nil]
    exact hx

theorem readsOf_mem {i : Nat} {log : List (Nat × MoveEvent)} {rows : List MigKey} (h : readsOf i log = [rows]) :
    (i, .read rows) ∈ log := by
  have : rows ∈ readsOf i log := by rw [h]; exact List.mem_singleton.2 rfl
  obtain ⟨⟨n, v⟩, h1, h2⟩ := List.mem_filterMap.1 this
  cases v with
  | read r =>
    dsimp only at h2
    split at h2
    · rename_i e
      cases h2
      subst e
      exact h1
    · cases h2
  | _ => cases h2

/-- What takes effect in a program, in this order, is the beginning of what there was to do for the rows that it read,
and these were the rows at some time; all of it, if it ends without error. -/
theorem C106_order (hc : Collates S) (hl : FitNames jobs) (st : MigStore W) (h0 : S.Sound (st.table.getD []))
    (schedule : List Nat) (i : Nat) :
    let x := run S jobs (started st) schedule
    (movesOf i x.log = [] ∨ ∃ a b, ∃ rows, x.log = a ++ (i, .read rows) :: b ∧ rows = rowsAfter S (st.table.getD []) a ∧
      movesOf i x.log <+: (jobs i).plan rows) ∧
    (x.phase i = .done → ∃ a b, ∃ rows, x.log = a ++ (i, .read rows) :: b ∧ rows = rowsAfter S (st.table.getD []) a ∧
      movesOf i x.log = (jobs i).plan rows) := by
  intro x
  have hx : Along (jobs i) (readsOf i x.log) (movesOf i x.log) (x.phase i) := along st schedule i
  have hI : MoveInv S jobs (st.table.getD []) x := moveInv hc hl st h0 schedule
  have hr : ∀ rows, readsOf i x.log = [rows] → ∃ a b, x.log = a ++ (i, .read rows) :: b ∧
      rows = rowsAfter S (st.table.getD []) a := by
    intro rows h
    obtain ⟨a, b, h⟩ := List.append_of_mem (readsOf_mem h)
    exact ⟨a, b, h, hI.read a b i rows h⟩
  have hp : ∀ rows, readsOf i x.log = [rows] → movesOf i x.log <+: (jobs i).plan rows →
      ∃ a b, ∃ rows, x.log = a ++ (i, .read rows) :: b ∧ rows = rowsAfter S (st.table.getD []) a ∧
      movesOf i x.log <+: (jobs i).plan rows := by
    intro rows h h'
    obtain ⟨a, b, h1, h2⟩ := hr rows h
    exact ⟨a, b, rows, h1, h2, h'⟩
  constructor
  · cases hpe : x.phase i <;> rw [hpe] at hx
    case act => obtain ⟨rows, h1, h2⟩ := hx; exact .inr (hp rows h1 (by rw [h2]; exact List.prefix_append ..))
    case note => obtain ⟨rows, h1, h2, -⟩ := hx; exact .inr (hp rows h1 (by rw [h2]; exact List.prefix_append ..))
    case done => obtain ⟨rows, h1, h2⟩ := hx; exact .inr (hp rows h1 (by rw [h2]))
    case failed =>
      rcases hx with hx | ⟨rows, h1, h2⟩
      · exact .inl hx.2
      · exact .inr (hp rows h1 h2)
    case crashed => exact .inl hx.2
    case ask => exact .inl hx.2
    case create => exact .inl hx.2
    case load => exact .inl hx.2
  · intro hd
    rw [hd] at hx
    obtain ⟨rows, h1, h2⟩ := hx
    obtain ⟨a, b, h3, h4⟩ := hr rows h1
    exact ⟨a, b, rows, h3, h4, h2.symm⟩

/-- A program that undoes one and ends without error has undone the last of its migrations that was recorded when it
read the table, or there was none. -/
theorem C106_back (hc : Collates S) (hl : FitNames jobs) (st : MigStore W) (h0 : S.Sound (st.table.getD []))
    (schedule : List Nat) (i : Nat) (hb : (jobs i).goal = .back) :
    let x := run S jobs (started st) schedule
    x.phase i = .done → ∃ a b, x.log = a ++ b ∧
      movesOf i x.log = ((Spec.declared (jobs i).lists).filter fun k =>
        decide (k ∈ rowsAfter S (st.table.getD []) a)).getLast?.toList.map fun k => (false, k) := by
  intro x hd
  obtain ⟨a, b, rows, h1, h2, h3⟩ := (C106_order hc hl st h0 schedule i).2 hd
  refine ⟨a, (i, .read rows) :: b, h1, ?_⟩
  rw [h3, ← h2]
  unfold Spec.MigMover.plan
  rw [hb]
  simp only [Spec.MigGoal.applies, Spec.MigGoal.reverts, Spec.MigGoal.most, Bool.false_and, Bool.true_and,
    List.filter_false, List.map_nil, List.nil_append]
  congr 1
  rw [← List.head?_reverse]
  cases ((Spec.declared (jobs i).lists).filter fun k => decide (k ∈ rows)).reverse <;> rfl

end

namespace C106ex

def backs : Nat → MigMover := fun _ => mover .back
def st2 : MigStore (List Str) := ⟨some [a, b], ["up a".toList, "up b".toList]⟩

end C106ex

open C106ex in
/-- Two programs undo one migration each, at the same time: the same is reverted twice and one is left, with both
ending without error; one after the other they leave none. -/
theorem C106_back_violated :
    let x := run S0 backs (started st2) [0, 0, 1, 1, 0, 1, 0, 1]
    (∀ i, FairMover (backs i)) ∧ x.phase 0 = .done ∧ x.phase 1 = .done ∧ x.store.table = some [a] ∧
      x.store.world = ["up a".toList, "up b".toList, "down b".toList, "down b".toList] ∧
      (run S0 backs (started st2) [0, 0, 0, 0, 1, 1, 1, 1]).store.table = some [] := by
  refine ⟨fun i => (fairMover ms (.inl rfl) _).1, ?_⟩
  decide +kernel

namespace C106ex

example :
    let x := run S0 two (started st0) calm
    movesOf 0 x.log = [(true, a), (true, b)] ∧ readsOf 0 x.log = [[]] ∧
    movesOf 1 x.log = [(false, b), (false, a)] ∧ readsOf 1 x.log = [[a, b]] := by decide +kernel

/-- a program that is refused (`b` is there already when it wants to record it) stops there. -/
example :
    let x := run S0 (fun _ => mover .up) (started st1) [0, 0, 1, 1, 0, 0, 1, 1]
    movesOf 0 x.log = [(true, b)] ∧ x.phase 0 = .done ∧ movesOf 1 x.log = [(true, b)] ∧
      x.phase 1 = .failed ⟨1062, "23000".toList, "dup".toList⟩ := by decide +kernel

/-- nothing to undo. -/
example :
    let x := run S0 backs (started st0) [0, 0, 0]
    x.phase 0 = .done ∧ movesOf 0 x.log = [] ∧ x.log = [(0, .read [])] := by decide +kernel

end C106ex

end Verif

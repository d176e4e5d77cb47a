import Verif.Proofs.MigMany
import Verif.Props.C101_MigTogether

/-!
# C106 — several programs move one database to versions at the same time

There is no lock around migrating (src/migrator/migrator_inner.rs 17-68, 97-164): what a program does is decided
by the table as it was when the program read it.
-/

namespace Verif

open Spec (MigServer MigStore SqlError MigGoal MigMover MigMove MovePhase MoveEvent MoveSystem rowsAfter inEffect commandsOf)
open Spec.MoveSystem (turn run started)

section
variable {W : Type} (S : MigServer W) (jobs : Nat → MigMover)

/-! ### the programs -/

/-- However the statements of the programs come one after the other: what the server does is what the schedule
says; every program sends its statements, and has, with the answers on its connection, the outcome it has
in the schedule. -/
theorem C106_run (hS : FairMig S) (hc : Collates S) (debug : Bool) (fp : FloatParse)
    (hj : ∀ i, FairMover (jobs i)) (st : MigStore W) (h0 : S.Sound (st.table.getD []))
    (schedule : List Nat) :
    let x := run S jobs (started st) schedule
    ∃ cmds sent, S.talkEach st cmds = some (x.store, sent) ∧
      ∀ i (c : Conn) (r : List Rx), MigRest S c (rxOf (sent i) ++ r) →
        let m := migrateTo debug fp (jobs i)
        (x.phase i = .crashed → (m c).1 = .panic) ∧
        (x.phase i ≠ .crashed → ∃ q, m c = restOfMove S fp (jobs i) (x.phase i) { c with
            rx := r
            tx := c.tx ++ Spec.commands (commandsOf i cmds)
            seqId := q }) ∧
        (x.phase i = .done → (m c).1 = .ok ()) ∧
        (∀ e, x.phase i = .failed e → (m c).1 = .err (migRefusal S e)) := by
  intro x
  obtain ⟨cmds, sent, h1, h2⟩ := move_talk S jobs hS hc fp hj schedule (started st) ⟨h0, fun _ => trivial⟩
  refine ⟨cmds, sent, h1, fun i c r hrest => ?_⟩
  obtain ⟨h3, h4⟩ := h2 i c r hrest
  intro m
  have hm : m = restOfMove S fp (jobs i) .ask := migrateTo_eq S debug fp (jobs i) (hj i).proper
  rw [hm]
  refine ⟨h3, h4, fun hd => ?_, fun e he => ?_⟩
  · obtain ⟨q, h5⟩ := h4 (by rw [hd]; exact fun h => by cases h)
    rw [hd] at h5
    exact congrArg Prod.fst h5
  · obtain ⟨q, h5⟩ := h4 (by rw [he]; exact fun h => by cases h)
    rw [he] at h5
    exact congrArg Prod.fst h5

/-! ### the table -/

/-- names fit into the column. -/
def FitNames : Prop := ∀ i, ∀ k ∈ Spec.declared (jobs i).lists, k.2.length ≤ 255

theorem rowsAfter_append (rows0 : List MigKey) (a b : List (Nat × MoveEvent)) :
    rowsAfter S rows0 (a ++ b) = rowsAfter S (rowsAfter S rows0 a) b := List.foldl_append ..

theorem inEffect_append (b : Bool) (k : MigKey) (l l' : List (Nat × MoveEvent)) :
    inEffect b k (l ++ l') = inEffect (inEffect b k l) k l' := List.foldl_append ..

/-- what a program has read and done until now. -/
def Decided (j : MigMover) (rows0 : List MigKey) (i : Nat) (log : List (Nat × MoveEvent)) (m : MigMove) : Prop :=
  ∃ e1 e2 rows, log = e1 ++ (i, .read rows) :: e2 ∧ rows = rowsAfter S rows0 e1 ∧ m ∈ j.plan rows

/-- what holds all the time. -/
structure MoveInv (rows0 : List MigKey) (x : MoveSystem W) : Prop where
  ok : MovesOk S jobs x
  rows : x.rows = rowsAfter S rows0 x.log
  read : ∀ e1 e2 i rows, x.log = e1 ++ (i, .read rows) :: e2 → rows = rowsAfter S rows0 e1
  noted : ∀ e1 e2 i m, x.log = e1 ++ (i, .noted m) :: e2 → (i, .took m) ∈ e1
  decided : ∀ e1 e2 i m, x.log = e1 ++ (i, .took m) :: e2 → Decided S (jobs i) rows0 i e1 m
  ahead : ∀ i m ms, x.phase i = .act m ms ∨ x.phase i = .note m ms → ∀ m' ∈ m :: ms, Decided S (jobs i) rows0 i x.log m'
  now : ∀ i m ms, x.phase i = .note m ms → (i, .took m) ∈ x.log

variable {S jobs}

theorem Decided.more {j : MigMover} {rows0 : List MigKey} {i : Nat} {log : List (Nat × MoveEvent)} {m : MigMove}
    (h : Decided S j rows0 i log m) (l : List (Nat × MoveEvent)) : Decided S j rows0 i (log ++ l) m := by
  obtain ⟨e1, e2, rows, rfl, h2, h3⟩ := h
  exact ⟨e1, e2 ++ l, rows, by simp, h2, h3⟩

theorem phase_turn (x : MoveSystem W) (n i : Nat) : (turn S jobs x n).phase i =
    if i = n then (S.moveOn (jobs n) x.store (x.phase n)).2.1 else x.phase i := rfl

theorem todo_ahead {ms : List MigMove} {m : MigMove} {ms' : List MigMove}
    (h : MovePhase.todo ms = .act m ms' ∨ MovePhase.todo ms = .note m ms') : ms = m :: ms' := by
  cases ms with
  | nil => rcases h with h | h <;> cases h
  | cons => rcases h with h | h <;> cases h; rfl

theorem MoveInv.turn (hc : Collates S) (hl : FitNames jobs) {rows0 : List MigKey} {x : MoveSystem W}
    (h : MoveInv S jobs rows0 x) (n : Nat) : MoveInv S jobs rows0 (turn S jobs x n) := by
  have hok := h.ok.turn hc n
  have hrows := h.rows
  have hpn := h.ok.phase n
  unfold Spec.MoveSystem.rows at hrows
  have ht := turned S (jobs n) x.store (x.phase n)
  have hlog : (Spec.MoveSystem.turn S jobs x n).log =
      x.log ++ (S.moveOn (jobs n) x.store (x.phase n)).2.2.map fun e => (n, e) := rfl
  have htab : (Spec.MoveSystem.turn S jobs x n).rows = (S.moveOn (jobs n) x.store (x.phase n)).1.table.getD [] := rfl
  have hph := phase_turn (S := S) (jobs := jobs) x n
  generalize S.moveOn (jobs n) x.store (x.phase n) = y at ht hlog htab hph
  -- other programs
  have hothers : ∀ l i m ms, i ≠ n →
      (Spec.MoveSystem.turn S jobs x n).phase i = .act m ms ∨ (Spec.MoveSystem.turn S jobs x n).phase i = .note m ms →
      ∀ m' ∈ m :: ms, Decided S (jobs i) rows0 i (x.log ++ l) m' := by
    intro l i m ms hi hp m' hm'
    rw [hph, if_neg hi] at hp
    exact (h.ahead i m ms hp m' hm').more l
  have hnow' : ∀ l i m ms, i ≠ n → (Spec.MoveSystem.turn S jobs x n).phase i = .note m ms → (i, .took m) ∈ x.log ++ l := by
    intro l i m ms hi hp
    rw [hph, if_neg hi] at hp
    exact List.mem_append_left _ (h.now i m ms hp)
  generalize hpe : x.phase n = p at ht hpn
  cases ht with
  | @quiet _ p' t h1 h2 h3 h4 h5 =>
    simp only [List.map_nil] at hlog
    have hnot : ∀ i m ms, (Spec.MoveSystem.turn S jobs x n).phase i = .act m ms ∨
        (Spec.MoveSystem.turn S jobs x n).phase i = .note m ms → i ≠ n := by
      intro i m ms hp hi
      rw [hph, if_pos hi] at hp
      dsimp only at hp
      rcases hp with hp | hp <;> rw [hp] at h2 <;> cases h2
    refine ⟨hok, ?_, ?_, ?_, ?_, ?_, ?_⟩
    · rw [htab, hlog, List.append_nil, ← hrows]
      exact h1
    · rw [hlog, List.append_nil]; exact h.read
    · rw [hlog, List.append_nil]; exact h.noted
    · rw [hlog, List.append_nil]; exact h.decided
    · rw [hlog]
      exact fun i m ms hp => hothers _ i m ms (hnot i m ms hp) hp
    · rw [hlog]
      exact fun i m ms hp => hnow' _ i m ms (hnot i m ms (.inr hp)) hp
  | @read rows h1 h2 =>
    simp only [List.map_cons, List.map_nil] at hlog
    rw [h1] at hrows
    refine ⟨hok, ?_, ?_, ?_, ?_, ?_, ?_⟩
    · rw [htab, hlog, rowsAfter_append, ← hrows]
      dsimp only
      rw [h1]
      rfl
    · rw [hlog]
      intro e1 e2 i rs he
      rcases snoc_split he with ⟨rfl, h5, rfl⟩ | ⟨e, he'⟩
      · cases h5
        exact hrows
      · exact h.read _ _ _ _ he'
    · rw [hlog]
      intro e1 e2 i m he
      rcases snoc_split he with ⟨rfl, h5, rfl⟩ | ⟨e, he'⟩
      · cases h5
      · exact h.noted _ _ _ _ he'
    · rw [hlog]
      intro e1 e2 i m he
      rcases snoc_split he with ⟨rfl, h5, rfl⟩ | ⟨e, he'⟩
      · cases h5
      · exact h.decided _ _ _ _ he'
    · rw [hlog]
      intro i m ms hp m' hm'
      by_cases hi : i = n
      · subst hi
        rw [hph, if_pos rfl] at hp
        rw [← todo_ahead hp] at hm'
        exact ⟨x.log, [], rows, rfl, hrows, hm'⟩
      · exact hothers _ i m ms hi hp m' hm'
    · rw [hlog]
      intro i m ms hp
      by_cases hi : i = n
      · subst hi
        rw [hph, if_pos rfl] at hp
        cases hpl : (jobs i).plan rows <;> rw [hpl] at hp <;> cases hp
      · exact hnow' _ i m ms hi hp
  | @unknown rows h1 h2 =>
    simp only [List.map_cons, List.map_nil] at hlog
    rw [h1] at hrows
    have hnot : ∀ i m ms, (Spec.MoveSystem.turn S jobs x n).phase i = .act m ms ∨
        (Spec.MoveSystem.turn S jobs x n).phase i = .note m ms → i ≠ n := by
      intro i m ms hp hi
      rw [hph, if_pos hi] at hp
      rcases hp with hp | hp <;> cases hp
    refine ⟨hok, ?_, ?_, ?_, ?_, ?_, ?_⟩
    · rw [htab, hlog, rowsAfter_append, ← hrows]
      dsimp only
      rw [h1]
      rfl
    · rw [hlog]
      intro e1 e2 i rs he
      rcases snoc_split he with ⟨rfl, h5, rfl⟩ | ⟨e, he'⟩
      · cases h5
        exact hrows
      · exact h.read _ _ _ _ he'
    · rw [hlog]
      intro e1 e2 i m he
      rcases snoc_split he with ⟨rfl, h5, rfl⟩ | ⟨e, he'⟩
      · cases h5
      · exact h.noted _ _ _ _ he'
    · rw [hlog]
      intro e1 e2 i m he
      rcases snoc_split he with ⟨rfl, h5, rfl⟩ | ⟨e, he'⟩
      · cases h5
      · exact h.decided _ _ _ _ he'
    · rw [hlog]
      exact fun i m ms hp => hothers _ i m ms (hnot i m ms hp) hp
    · rw [hlog]
      exact fun i m ms hp => hnow' _ i m ms (hnot i m ms (.inr hp)) hp
  | @took m0 ms0 w h1 =>
    simp only [List.map_cons, List.map_nil] at hlog
    refine ⟨hok, ?_, ?_, ?_, ?_, ?_, ?_⟩
    · rw [htab, hlog, rowsAfter_append, ← hrows]
      rfl
    · rw [hlog]
      intro e1 e2 i rs he
      rcases snoc_split he with ⟨rfl, h5, rfl⟩ | ⟨e, he'⟩
      · cases h5
      · exact h.read _ _ _ _ he'
    · rw [hlog]
      intro e1 e2 i m he
      rcases snoc_split he with ⟨rfl, h5, rfl⟩ | ⟨e, he'⟩
      · cases h5
      · exact h.noted _ _ _ _ he'
    · rw [hlog]
      intro e1 e2 i m he
      rcases snoc_split he with ⟨rfl, h5, rfl⟩ | ⟨e, he'⟩
      · cases h5
        exact h.ahead n _ ms0 (.inl hpe) _ (List.mem_cons_self ..)
      · exact h.decided _ _ _ _ he'
    · rw [hlog]
      intro i m ms hp m' hm'
      by_cases hi : i = n
      · subst hi
        rw [hph, if_pos rfl] at hp
        rcases hp with hp | hp <;> cases hp
        exact (h.ahead i _ _ (.inl hpe) m' hm').more _
      · exact hothers _ i m ms hi hp m' hm'
    · rw [hlog]
      intro i m ms hp
      by_cases hi : i = n
      · subst hi
        rw [hph, if_pos rfl] at hp
        cases hp
        simp
      · exact hnow' _ i m ms hi hp
  | @recorded k ms0 rows rows' h1 h2 =>
    simp only [List.map_cons, List.map_nil] at hlog
    rw [h1] at hrows
    have hkl := hl n k (hpn (true, k) (List.mem_cons_self ..)).1
    obtain ⟨rfl, hcl⟩ := inserted_short hkl h2
    refine ⟨hok, ?_, ?_, ?_, ?_, ?_, ?_⟩
    · rw [htab, hlog, rowsAfter_append, ← hrows]
      rfl
    · rw [hlog]
      intro e1 e2 i rs he
      rcases snoc_split he with ⟨rfl, h5, rfl⟩ | ⟨e, he'⟩
      · cases h5
      · exact h.read _ _ _ _ he'
    · rw [hlog]
      intro e1 e2 i m he
      rcases snoc_split he with ⟨rfl, h5, rfl⟩ | ⟨e, he'⟩
      · cases h5
        exact h.now _ _ _ hpe
      · exact h.noted _ _ _ _ he'
    · rw [hlog]
      intro e1 e2 i m he
      rcases snoc_split he with ⟨rfl, h5, rfl⟩ | ⟨e, he'⟩
      · cases h5
      · exact h.decided _ _ _ _ he'
    · rw [hlog]
      intro i m ms hp m' hm'
      by_cases hi : i = n
      · subst hi
        rw [hph, if_pos rfl] at hp
        rw [← todo_ahead hp] at hm'
        exact (h.ahead i _ _ (.inr hpe) m' (List.mem_cons_of_mem _ hm')).more _
      · exact hothers _ i m ms hi hp m' hm'
    · rw [hlog]
      intro i m ms hp
      by_cases hi : i = n
      · subst hi
        rw [hph, if_pos rfl] at hp
        cases ms0 <;> cases hp
      · exact hnow' _ i m ms hi hp
  | @removed k ms0 rows h1 =>
    simp only [List.map_cons, List.map_nil] at hlog
    rw [h1] at hrows
    refine ⟨hok, ?_, ?_, ?_, ?_, ?_, ?_⟩
    · rw [htab, hlog, rowsAfter_append, ← hrows]
      rfl
    · rw [hlog]
      intro e1 e2 i rs he
      rcases snoc_split he with ⟨rfl, h5, rfl⟩ | ⟨e, he'⟩
      · cases h5
      · exact h.read _ _ _ _ he'
    · rw [hlog]
      intro e1 e2 i m he
      rcases snoc_split he with ⟨rfl, h5, rfl⟩ | ⟨e, he'⟩
      · cases h5
        exact h.now _ _ _ hpe
      · exact h.noted _ _ _ _ he'
    · rw [hlog]
      intro e1 e2 i m he
      rcases snoc_split he with ⟨rfl, h5, rfl⟩ | ⟨e, he'⟩
      · cases h5
      · exact h.decided _ _ _ _ he'
    · rw [hlog]
      intro i m ms hp m' hm'
      by_cases hi : i = n
      · subst hi
        rw [hph, if_pos rfl] at hp
        rw [← todo_ahead hp] at hm'
        exact (h.ahead i _ _ (.inr hpe) m' (List.mem_cons_of_mem _ hm')).more _
      · exact hothers _ i m ms hi hp m' hm'
    · rw [hlog]
      intro i m ms hp
      by_cases hi : i = n
      · subst hi
        rw [hph, if_pos rfl] at hp
        cases ms0 <;> cases hp
      · exact hnow' _ i m ms hi hp

theorem moveInv (hc : Collates S) (hl : FitNames jobs) (st : MigStore W) (h0 : S.Sound (st.table.getD []))
    (schedule : List Nat) : MoveInv S jobs (st.table.getD []) (run S jobs (started st) schedule) := by
  refine move_always S jobs ?_ (fun y i hy => hy.turn hc hl i) schedule
  refine ⟨⟨h0, fun _ => trivial⟩, rfl, ?_, ?_, ?_, ?_, ?_⟩
  · intro e1 e2 i rows h
    simp [started] at h
  · intro e1 e2 i rows h
    simp [started] at h
  · intro e1 e2 i rows h
    simp [started] at h
  · intro i m ms h
    rcases h with h | h <;> cases h
  · intro i m ms h
    cases h

/-! ### what holds, however they come one after the other -/

section
variable (hc : Collates S) (hl : FitNames jobs) (st : MigStore W) (h0 : S.Sound (st.table.getD []))
  (schedule : List Nat)
include hc hl h0

/-- The rows are what the records and their removals make of them, and the table stays one that the unique
index admits: no migration is recorded while there is a record of it. -/
theorem C106_table :
    let x := run S jobs (started st) schedule
    x.rows = rowsAfter S (st.table.getD []) x.log ∧ S.Sound x.rows ∧ x.rows.Nodup :=
  have h := moveInv hc hl st h0 schedule
  ⟨h.rows, h.ok.store, sound_nodup hc h.ok.store⟩

/-- A record is added by a program in which the migration took effect before, and removed by one that reverted
it before. -/
theorem C106_noted (e1 e2 : List (Nat × MoveEvent)) (i : Nat) (m : MigMove)
    (h : (run S jobs (started st) schedule).log = e1 ++ (i, .noted m) :: e2) : (i, .took m) ∈ e1 :=
  (moveInv hc hl st h0 schedule).noted e1 e2 i m h

/-- What takes effect in a program was decided when it read the table: a migration that was missing then and
is to be there, or one that was there and is to go. -/
theorem C106_decided (e1 e2 : List (Nat × MoveEvent)) (i : Nat) (m : MigMove)
    (h : (run S jobs (started st) schedule).log = e1 ++ (i, .took m) :: e2) :
    ∃ a b rows, e1 = a ++ (i, .read rows) :: b ∧ rows = rowsAfter S (st.table.getD []) a ∧
      m.2 ∈ Spec.declared (jobs i).lists ∧
      (m.1 = true ∧ (jobs i).goal.applies m.2 = true ∧ m.2 ∉ rows ∨
        m.1 = false ∧ (jobs i).goal.reverts m.2 = true ∧ m.2 ∈ rows) := by
  obtain ⟨a, b, rows, h1, h2, h3⟩ := (moveInv hc hl st h0 schedule).decided e1 e2 i m h
  exact ⟨a, b, rows, h1, h2, of_mem_plan h3⟩

end

/-! ### every program ends -/

/-- how many statements are left, at most. -/
def movesLeft (j : MigMover) : MovePhase → Nat
  | .ask => 3 + 2 * (Spec.declared j.lists).length
  | .create => 2 + 2 * (Spec.declared j.lists).length
  | .load => 1 + 2 * (Spec.declared j.lists).length
  | .act _ ms => 2 + 2 * ms.length
  | .note _ ms => 1 + 2 * ms.length
  | _ => 0

theorem movesLeft_todo (j : MigMover) (ms : List MigMove) : movesLeft j (.todo ms) = 2 * ms.length := by
  cases ms with
  | nil => rfl
  | cons m ms =>
    simp only [Spec.MovePhase.todo, movesLeft, List.length_cons]
    omega

theorem movesLeft_on (j : MigMover) (st : MigStore W) (p : MovePhase) :
    movesLeft j (S.moveOn j st p).2.1 ≤ movesLeft j p - 1 := by
  cases p with
  | ask =>
    simp only [Spec.MigServer.moveOn]
    split <;> simp only [movesLeft] <;> omega
  | create =>
    rw [Spec.MigServer.moveOn]
    cases st.table <;> simp only [movesLeft] <;> omega
  | load =>
    rw [Spec.MigServer.moveOn]
    cases st.table with
    | none => simp only [movesLeft]; omega
    | some rows =>
      dsimp only
      split
      · rw [movesLeft_todo]
        have := plan_length j rows
        simp only [movesLeft]
        omega
      · simp only [movesLeft]; omega
  | act m ms =>
    rw [Spec.MigServer.moveOn]
    cases S.foreign st.world (j.sql m) <;> simp only [movesLeft] <;> omega
  | note m ms =>
    obtain ⟨b, k⟩ := m
    cases b with
    | true =>
      rw [Spec.MigServer.moveOn]
      cases st.table with
      | none => simp only [movesLeft]; omega
      | some rows =>
        dsimp only
        cases S.inserted st.world rows k.1.major.toNat k.1.minor.toNat k.1.patch.toNat k.2 with
        | error e => simp only [movesLeft]; omega
        | ok rows' => rw [movesLeft_todo]; simp only [movesLeft]; omega
    | false =>
      rw [Spec.MigServer.moveOn]
      cases st.table with
      | none => simp only [movesLeft]; omega
      | some rows => dsimp only; rw [movesLeft_todo]; simp only [movesLeft]; omega
  | done => simp [Spec.MigServer.moveOn, movesLeft]
  | failed e => simp [Spec.MigServer.moveOn, movesLeft]
  | crashed => simp [Spec.MigServer.moveOn, movesLeft]

/-- A program has ended after three statements and two per migration, whatever the others do. -/
theorem C106_ends (st : MigStore W) (schedule : List Nat) (i : Nat)
    (h : 3 + 2 * (Spec.declared (jobs i).lists).length ≤ schedule.count i) :
    ((run S jobs (started st) schedule).phase i).ended = true := by
  have key : ∀ (sched : List Nat) (x : MoveSystem W),
      movesLeft (jobs i) ((run S jobs x sched).phase i) ≤ movesLeft (jobs i) (x.phase i) - sched.count i := by
    intro sched
    induction sched with
    | nil => intro x; simp [move_nil]
    | cons n is ih =>
      intro x
      rw [move_cons]
      refine (ih _).trans ?_
      rw [phase_turn, List.count_cons]
      split
      · rename_i e
        subst e
        have := movesLeft_on (S := S) (jobs i) x.store (x.phase i)
        simp only [beq_self_eq_true, if_true]
        omega
      · rename_i e
        simp only [beq_iff_eq, if_neg (Ne.symm e)]
        omega
  have := key schedule (started st)
  have h2 : movesLeft (jobs i) ((started st).phase i) = 3 + 2 * (Spec.declared (jobs i).lists).length := rfl
  rw [h2] at this
  generalize (run S jobs (started st) schedule).phase i = p at this
  cases p <;> first | rfl | (simp only [movesLeft] at this; omega)

/-! ### goals that do not contradict each other -/

/-- `k` is there, or the program is about to record it. -/
def Toward (rows : List MigKey) (k : MigKey) : MovePhase → Prop
  | .act m ms => k ∈ rows ∨ (true, k) ∈ m :: ms
  | .note m ms => k ∈ rows ∨ (true, k) ∈ m :: ms
  | .done => k ∈ rows
  | _ => True

theorem toward_mono {rows rows' : List MigKey} {k : MigKey} (h : k ∈ rows → k ∈ rows') {p : MovePhase}
    (hp : Toward rows k p) : Toward rows' k p := by
  cases p with
  | act m ms => exact hp.imp h id
  | note m ms => exact hp.imp h id
  | done => exact h hp
  | _ => trivial

theorem toward_todo {rows : List MigKey} {k : MigKey} {ms : List MigMove} (h : k ∈ rows ∨ (true, k) ∈ ms) :
    Toward rows k (.todo ms) := by
  cases ms with
  | nil => exact h.elim id fun h => by cases h
  | cons => exact h

/-- If no program reverts `k` (nor what the server takes for `k`): its record stays, and a program that is to
apply it and ends without error leaves it recorded. -/
theorem C106_kept (hc : Collates S) (hl : FitNames jobs) (st : MigStore W) (h0 : S.Sound (st.table.getD []))
    (k : MigKey) (hk : ∀ i, ∀ k' ∈ Spec.declared (jobs i).lists, S.clash k k' = true → (jobs i).goal.reverts k' = false)
    (s s' : List Nat) :
    (k ∈ (run S jobs (started st) s).rows → k ∈ (run S jobs (started st) (s ++ s')).rows) ∧
    ∀ i, (run S jobs (started st) s).phase i = .done → k ∈ Spec.declared (jobs i).lists →
      (jobs i).goal.applies k = true → k ∈ (run S jobs (started st) s).rows := by
  have hrow : ∀ (x : MoveSystem W) n, MoveInv S jobs (st.table.getD []) x → k ∈ x.rows → k ∈ (turn S jobs x n).rows := by
    intro x n hI hx
    have ht := turned S (jobs n) x.store (x.phase n)
    have htab : (turn S jobs x n).rows = (S.moveOn (jobs n) x.store (x.phase n)).1.table.getD [] := rfl
    have hpn := hI.ok.phase n
    rw [htab]
    generalize S.moveOn (jobs n) x.store (x.phase n) = y at ht
    generalize x.phase n = p at ht hpn
    have hx' : k ∈ x.store.table.getD [] := hx
    cases ht with
    | quiet h1 => dsimp only; rw [h1]; exact hx'
    | read => exact hx'
    | unknown => exact hx'
    | took => exact hx'
    | recorded h1 h2 =>
      rw [h1] at hx'
      obtain ⟨n, -, rfl, -⟩ := inserted_ok S h2
      exact List.mem_append_left _ hx'
    | @removed k' ms rows h1 =>
      rw [h1] at hx'
      refine List.mem_filter.2 ⟨hx', ?_⟩
      have ha := hpn (false, k') (List.mem_cons_self ..)
      cases hcl : S.clash k k' with
      | false => rfl
      | true =>
        have h3 := hk n k' ha.1 hcl
        have h4 := ha.2.2 rfl
        dsimp only at h4
        rw [h3] at h4
        cases h4
  have htow : ∀ i, k ∈ Spec.declared (jobs i).lists → (jobs i).goal.applies k = true →
      Toward (run S jobs (started st) s).rows k ((run S jobs (started st) s).phase i) := by
    intro i hkd hap
    refine (move_always S jobs (P := fun x => MoveInv S jobs (st.table.getD []) x ∧ Toward x.rows k (x.phase i))
      ⟨moveInv hc hl st h0 [], trivial⟩ (fun x n hx => ⟨hx.1.turn hc hl n, ?_⟩) s).2
    obtain ⟨hI, hT⟩ := hx
    have hmono := hrow x n hI
    rw [phase_turn]
    split
    · rename_i e
      subst e
      have ht := turned S (jobs i) x.store (x.phase i)
      have htab : (turn S jobs x i).rows = (S.moveOn (jobs i) x.store (x.phase i)).1.table.getD [] := rfl
      have hpn := hI.ok.phase i
      generalize S.moveOn (jobs i) x.store (x.phase i) = y at ht htab
      generalize hpe : x.phase i = p at ht hpn hT
      cases ht with
      | @quiet _ p' t h1 h2 h3 h4 h5 =>
        cases p' with
        | done =>
          rw [h3 rfl] at hT
          exact hmono hT
        | act => cases h2
        | note => cases h2
        | _ => trivial
      | @read rows h1 h2 =>
        refine toward_todo ?_
        by_cases hkr : k ∈ rows
        · refine .inl (hmono ?_)
          show k ∈ x.store.table.getD []
          rw [h1]
          exact hkr
        · exact .inr (mem_plan_up hkd hap hkr)
      | unknown => trivial
      | took => exact hT.imp hmono id
      | @recorded k' ms rows rows' h1 h2 =>
        refine toward_todo ?_
        rcases hT with hT | hT
        · exact .inl (hmono hT)
        · rcases List.mem_cons.1 hT with hT | hT
          · cases hT
            left
            obtain ⟨rfl, -⟩ := inserted_short (hl i _ (hpn (true, k) (List.mem_cons_self ..)).1) h2
            rw [htab]
            exact List.mem_append_right _ (List.mem_singleton.2 rfl)
          · exact .inr hT
      | @removed k' ms rows h1 =>
        refine toward_todo ?_
        rcases hT with hT | hT
        · exact .inl (hmono hT)
        · rcases List.mem_cons.1 hT with hT | hT
          · cases hT
          · exact .inr hT
    · exact toward_mono hmono hT
  refine ⟨fun h => ?_, fun i hd hkd hap => ?_⟩
  · have : run S jobs (started st) (s ++ s') = run S jobs (run S jobs (started st) s) s' := by
      unfold run
      rw [List.foldl_append]
    rw [this]
    exact (move_always S jobs (P := fun x => MoveInv S jobs (st.table.getD []) x ∧ k ∈ x.rows)
      ⟨moveInv hc hl st h0 s, h⟩ (fun x n hx => ⟨hx.1.turn hc hl n, hrow x n hx.1 hx.2⟩) s').2
  · have := htow i hkd hap
    rw [hd] at this
    exact this

/-- `k` is not there, or the program is about to remove its record. -/
def Away (rows : List MigKey) (k : MigKey) : MovePhase → Prop
  | .act m ms => k ∉ rows ∨ (false, k) ∈ m :: ms
  | .note m ms => k ∉ rows ∨ (false, k) ∈ m :: ms
  | .done => k ∉ rows
  | _ => True

theorem away_mono {rows rows' : List MigKey} {k : MigKey} (h : k ∉ rows → k ∉ rows') {p : MovePhase}
    (hp : Away rows k p) : Away rows' k p := by
  cases p with
  | act m ms => exact hp.imp h id
  | note m ms => exact hp.imp h id
  | done => exact h hp
  | _ => trivial

theorem away_todo {rows : List MigKey} {k : MigKey} {ms : List MigMove} (h : k ∉ rows ∨ (false, k) ∈ ms) :
    Away rows k (.todo ms) := by
  cases ms with
  | nil => exact h.elim id fun h => by cases h
  | cons => exact h

/-- If no program applies `k`: once there is no record of it, there is none, and a program that is to revert it
and ends without error leaves it without record. -/
theorem C106_gone (hc : Collates S) (hl : FitNames jobs) (st : MigStore W) (h0 : S.Sound (st.table.getD []))
    (k : MigKey) (hk : ∀ i, k ∈ Spec.declared (jobs i).lists → (jobs i).goal.applies k = false) (s s' : List Nat) :
    (k ∉ (run S jobs (started st) s).rows → k ∉ (run S jobs (started st) (s ++ s')).rows) ∧
    ∀ i, (run S jobs (started st) s).phase i = .done → k ∈ Spec.declared (jobs i).lists →
      (jobs i).goal.clears k = true → k ∉ (run S jobs (started st) s).rows := by
  have hrow : ∀ (x : MoveSystem W) n, MoveInv S jobs (st.table.getD []) x → k ∉ x.rows → k ∉ (turn S jobs x n).rows := by
    intro x n hI hx
    have ht := turned S (jobs n) x.store (x.phase n)
    have htab : (turn S jobs x n).rows = (S.moveOn (jobs n) x.store (x.phase n)).1.table.getD [] := rfl
    have hpn := hI.ok.phase n
    rw [htab]
    generalize S.moveOn (jobs n) x.store (x.phase n) = y at ht
    generalize x.phase n = p at ht hpn
    have hx' : k ∉ x.store.table.getD [] := hx
    cases ht with
    | quiet h1 => dsimp only; rw [h1]; exact hx'
    | read => exact hx'
    | unknown => exact hx'
    | took => exact hx'
    | @recorded k' ms rows rows' h1 h2 =>
      rw [h1] at hx'
      have ha := hpn (true, k') (List.mem_cons_self ..)
      obtain ⟨rfl, -⟩ := inserted_short (hl n _ ha.1) h2
      intro hm
      rcases List.mem_append.1 hm with hm | hm
      · exact hx' hm
      · rw [List.mem_singleton] at hm
        subst hm
        have h4 := ha.2.1 rfl
        dsimp only at h4
        rw [hk n ha.1] at h4
        cases h4
    | removed h1 =>
      rw [h1] at hx'
      exact fun hm => hx' (List.mem_filter.1 hm).1
  have haway : ∀ i, k ∈ Spec.declared (jobs i).lists → (jobs i).goal.clears k = true →
      Away (run S jobs (started st) s).rows k ((run S jobs (started st) s).phase i) := by
    intro i hkd hrv
    refine (move_always S jobs (P := fun x => MoveInv S jobs (st.table.getD []) x ∧ Away x.rows k (x.phase i))
      ⟨moveInv hc hl st h0 [], trivial⟩ (fun x n hx => ⟨hx.1.turn hc hl n, ?_⟩) s).2
    obtain ⟨hI, hT⟩ := hx
    have hmono := hrow x n hI
    rw [phase_turn]
    split
    · rename_i e
      subst e
      have ht := turned S (jobs i) x.store (x.phase i)
      have htab : (turn S jobs x i).rows = (S.moveOn (jobs i) x.store (x.phase i)).1.table.getD [] := rfl
      generalize S.moveOn (jobs i) x.store (x.phase i) = y at ht htab
      generalize hpe : x.phase i = p at ht hT
      cases ht with
      | @quiet _ p' t h1 h2 h3 h4 h5 =>
        cases p' with
        | done =>
          rw [h3 rfl] at hT
          exact hmono hT
        | act => cases h2
        | note => cases h2
        | _ => trivial
      | @read rows h1 h2 =>
        refine away_todo ?_
        by_cases hkr : k ∈ rows
        · exact .inr (mem_plan_down hkd hrv hkr)
        · refine .inl (hmono ?_)
          show k ∉ x.store.table.getD []
          rw [h1]
          exact hkr
      | unknown => trivial
      | took => exact hT.imp hmono id
      | @recorded k' ms rows rows' h1 h2 =>
        refine away_todo ?_
        rcases hT with hT | hT
        · exact .inl (hmono hT)
        · rcases List.mem_cons.1 hT with hT | hT
          · cases hT
          · exact .inr hT
      | @removed k' ms rows h1 =>
        refine away_todo ?_
        rcases hT with hT | hT
        · exact .inl (hmono hT)
        · rcases List.mem_cons.1 hT with hT | hT
          · cases hT
            left
            rw [htab]
            intro hm
            have := (List.mem_filter.1 hm).2
            rw [clash_self hc] at this
            cases this
          · exact .inr hT
    · exact away_mono hmono hT
  refine ⟨fun h => ?_, fun i hd hkd hrv => ?_⟩
  · have : run S jobs (started st) (s ++ s') = run S jobs (run S jobs (started st) s) s' := by
      unfold run
      rw [List.foldl_append]
    rw [this]
    exact (move_always S jobs (P := fun x => MoveInv S jobs (st.table.getD []) x ∧ k ∉ x.rows)
      ⟨moveInv hc hl st h0 s, h⟩ (fun x n hx => ⟨hx.1.turn hc hl n, hrow x n hx.1 hx.2⟩) s').2
  · have := haway i hkd hrv
    rw [hd] at this
    exact this

/-- Programs that all move to one version (their lists may differ): whoever ends without error leaves, of its
migrations, exactly those up to the version recorded, and so it stays.
Missing: programs with different goals (`C106_goal_violated`). -/
theorem C106_goal_partial (hc : Collates S) (hl : FitNames jobs) (st : MigStore W) (h0 : S.Sound (st.table.getD []))
    (v : Version) (hv : ∀ i, (jobs i).goal = .goto v) (s s' : List Nat) (i : Nat)
    (hd : (run S jobs (started st) s).phase i = .done) :
    ∀ k ∈ Spec.declared (jobs i).lists,
      k ∈ (run S jobs (started st) (s ++ s')).rows ↔ Spec.rank k.1 ≤ Spec.rank v := by
  intro k hkd
  by_cases hr : Spec.rank k.1 ≤ Spec.rank v
  · have hk : ∀ i, ∀ k' ∈ Spec.declared (jobs i).lists, S.clash k k' = true → (jobs i).goal.reverts k' = false := by
      intro i k' _ hcl
      unfold Spec.MigServer.clash at hcl
      rw [Bool.and_eq_true, decide_eq_true_iff] at hcl
      rw [hv i, Spec.MigGoal.reverts, ← hcl.1, decide_eq_false_iff_not]
      omega
    obtain ⟨h1, h2⟩ := C106_kept hc hl st h0 k hk s s'
    refine ⟨fun _ => hr, fun _ => h1 (h2 i hd hkd ?_)⟩
    rw [hv i, Spec.MigGoal.applies, decide_eq_true_iff]
    exact hr
  · have hk : ∀ i, k ∈ Spec.declared (jobs i).lists → (jobs i).goal.applies k = false := by
      intro i _
      rw [hv i, Spec.MigGoal.applies, decide_eq_false_iff_not]
      exact hr
    obtain ⟨h1, h2⟩ := C106_gone hc hl st h0 k hk s s'
    refine ⟨fun h => absurd h (h1 (h2 i hd hkd ?_)), fun h => absurd h hr⟩
    rw [hv i]
    show decide (Spec.rank v < Spec.rank k.1) = true
    rw [decide_eq_true_iff]
    omega

end

end Verif

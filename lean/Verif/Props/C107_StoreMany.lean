import Verif.Proofs.StoreMany
import Verif.Props.C97_Several
import Mathlib.Data.List.Induction

/-!
# C107 — several programs may store models in one database at the same time

C66, C67 and C97 are about one program that has the server for itself.  Here any number of programs, each on a
connection of its own, insert and update models at the same time.  The server executes one statement after the
other; which program's statement comes next is arbitrary (`sched`).
-/

namespace Verif

open Spec (SqlServer SqlState Tables Row Field Rec Script StoreJob StoreStep StoreEvent StoreSystem eventsBy cmdsBy)
open Spec.SqlServer (Stores meanings withRow Session Happens)

/-! ### on the connections -/

/-- where the connection is, and what the program is about to do. -/
def Holding (S : SqlServer) (js : List StoreJob) (left : Except Spec.SqlError (Script (List UInt64))) (sent : Bytes)
    (cmds : List Bytes) : Prop :=
  ∀ (c : Conn) (r : List Rx), AtRest S c (rxOf sent ++ r) → ∃ q, runJobs js c =
    match left with
    | .ok p => exec p { c with rx := r, tx := c.tx ++ Spec.commands cmds, seqId := q }
    | .error e => (.err (refusal S e), { c with rx := r, tx := c.tx ++ Spec.commands cmds, seqId := q })

theorem Holding.step {S : SqlServer} {js : List StoreJob} {s : StoreStep} {k : UInt64 → Script (List UInt64)}
    {sent : Bytes} {cmds : List Bytes} (h : Holding S js (.ok (.stmt s k)) sent cmds)
    {sent2 : Bytes} {cmds2 : List Bytes} {left : Except Spec.SqlError (Script (List UInt64))}
    (h2 : ∀ (c : Conn) (r : List Rx), AtRest S c (rxOf sent2 ++ r) → ∃ q,
      runStep s c = match left with
        | .ok _ => runStep s c
        | .error e => (.err (refusal S e), { c with rx := r, tx := c.tx ++ Spec.commands cmds2, seqId := q }))
    (h3 : ∀ p, left = .ok p → ∃ id, p = k id ∧ ∀ (c : Conn) (r : List Rx), AtRest S c (rxOf sent2 ++ r) →
      ∃ q, runStep s c = (.ok id, { c with rx := r, tx := c.tx ++ Spec.commands cmds2, seqId := q })) :
    Holding S js left (sent ++ sent2) (cmds ++ cmds2) := by
  intro c r hc
  obtain ⟨q, h1⟩ := h c (rxOf sent2 ++ r)
    ⟨hc.pending, hc.faults, hc.track, hc.p41, by rw [hc.rx, rxOf_append, List.append_assoc]⟩
  rw [h1]
  dsimp only
  have hn := hc.next (rxOf sent2 ++ r) (c.tx ++ Spec.commands cmds) q
  match left with
  | .ok p =>
    obtain ⟨id, rfl, h4⟩ := h3 p rfl
    obtain ⟨q2, h5⟩ := h4 _ r hn
    refine ⟨q2, ?_⟩
    rw [exec, SM.bind_of_ok h5, commands_append', ← List.append_assoc]
  | .error e =>
    obtain ⟨q2, h5⟩ := h2 _ r hn
    dsimp only at h5 ⊢
    refine ⟨q2, ?_⟩
    rw [exec, SM.bind_of_err h5, commands_append', ← List.append_assoc]

/-- along every schedule there is the conversation of all connections with the server. -/
theorem storing (S : SqlServer) (hS : Fair S) (jobs : Nat → List StoreJob) (hj : ∀ i, ∀ j ∈ jobs i, j.Fits)
    (rows : Tables) (ss : Nat → Session) (sched : List Nat) :
    (∀ i p, ((StoreSystem.started rows jobs).go S sched).left i = .ok p → ScriptAll (fun _ => True) p) ∧
    ∃ msgs ss' sent, S.talkEach rows ss msgs = some (((StoreSystem.started rows jobs).go S sched).rows, ss', sent) ∧
      ∀ i, Holding S (jobs i) (((StoreSystem.started rows jobs).go S sched).left i) (sent i) (cmdsBy i msgs) := by
  induction sched using List.reverseRecOn with
  | nil =>
    refine ⟨?_, [], ss, fun _ => [], rfl, ?_⟩
    · intro i p hp
      cases hp
      exact jobs_all _ (hj i)
    · intro i c r hc
      refine ⟨c.seqId, ?_⟩
      have : ({ c with rx := r, tx := c.tx ++ Spec.commands (cmdsBy i []), seqId := c.seqId } : Conn) = c := by
        have h := hc.rx
        rw [rxOf_nil, List.nil_append] at h
        simp [Spec.commands, Spec.cmdsBy, ← h]
      show runJobs (jobs i) c = exec (Spec.jobsScript (jobs i)) _
      rw [this, jobs_exec _ (hj i)]
  | append_singleton sched i ih =>
    rw [StoreSystem.go, List.foldl_append, List.foldl_cons, List.foldl_nil]
    rw [← StoreSystem.go]
    generalize (StoreSystem.started rows jobs).go S sched = x at ih ⊢
    obtain ⟨ok, msgs, ss1, sent, t1, t2⟩ := ih
    unfold StoreSystem.turn
    split
    next s k hl =>
      have hst := ok i _ hl
      obtain ⟨cmds, sent2, st2, g1, g2, g3⟩ := step_talk S hS ⟨x.rows, (ss1 i).prepared, (ss1 i).long⟩ hst.1
      have hlift := talk_each S i g1 ss1 rfl
      have htalk : S.talkEach rows ss (msgs ++ cmds.map fun m => (i, m)) = some (st2.rows,
          (fun n => if n = i then ⟨st2.prepared, st2.long⟩ else ss1 n),
          fun j => sent j ++ if j = i then sent2 else []) := by
        rw [talkEach_append, t1, Option.bind_some, hlift]
        rfl
      have hother : ∀ j, j ≠ i → Holding S (jobs j) (x.left j) (sent j ++ if j = i then sent2 else [])
          (cmdsBy j (msgs ++ cmds.map fun m => (i, m))) := by
        intro j hji
        rw [if_neg hji, List.append_nil, cmdsBy_append, cmdsBy_other hji, List.append_nil]
        exact t2 j
      have hi := t2 i
      rw [hl] at hi
      cases hr : S.refuses x.rows (S.after x.rows s) with
      | some e =>
        obtain ⟨k1, k2⟩ := g3 e hr
        refine ⟨?_, _, _, _, by rw [htalk, k1], ?_⟩
        · intro j p hp
          dsimp only at hp
          by_cases hji : j = i
          · rw [if_pos hji] at hp
            cases hp
          · rw [if_neg hji] at hp
            exact ok j p hp
        · intro j
          dsimp only
          by_cases hji : j = i
          · subst hji
            rw [if_pos rfl, if_pos rfl, cmdsBy_append, cmdsBy_own]
            exact hi.step k2 (by intro p hp; cases hp)
          · rw [if_neg hji]
            exact hother j hji
      | none =>
        obtain ⟨k1, k2⟩ := g2 hr
        refine ⟨?_, _, _, _, by rw [htalk, k1], ?_⟩
        · intro j p hp
          dsimp only at hp
          by_cases hji : j = i
          · rw [if_pos hji] at hp
            cases hp
            exact hst.2 _
          · rw [if_neg hji] at hp
            exact ok j p hp
        · intro j
          dsimp only
          by_cases hji : j = i
          · subst hji
            rw [if_pos rfl, if_pos rfl, cmdsBy_append, cmdsBy_own]
            refine hi.step (fun c r _ => ⟨0, rfl⟩) ?_
            intro p hp
            cases hp
            exact ⟨_, rfl, k2⟩
          · rw [if_neg hji]
            exact hother j hji
    · exact ⟨ok, msgs, ss1, sent, t1, t2⟩

/-- **C107**: however the statements of the programs come after each other, there is a conversation of all their
connections with the server that leaves these tables, in which each program that has ended sent exactly its commands,
read exactly the answers to them, got the ids of its own rows or the error that its own statement got, and left its
connection at rest. -/
theorem C107_run (S : SqlServer) (hS : Fair S) (jobs : Nat → List StoreJob) (hj : ∀ i, ∀ j ∈ jobs i, j.Fits)
    (rows : Tables) (ss : Nat → Session) (sched : List Nat) :
    ∃ msgs ss' sent, S.talkEach rows ss msgs = some (((StoreSystem.started rows jobs).go S sched).rows, ss', sent) ∧
      ∀ i, ∀ o ∈ ((StoreSystem.started rows jobs).go S sched).outcome i,
        ∀ (c : Conn) (r : List Rx), AtRest S c (rxOf (sent i) ++ r) → ∃ q, runJobs (jobs i) c =
          (match o with
            | .ok ids => .ok ids
            | .error e => .err (refusal S e),
          { c with rx := r, tx := c.tx ++ Spec.commands (cmdsBy i msgs), seqId := q }) := by
  obtain ⟨-, msgs, ss', sent, h1, h2⟩ := storing S hS jobs hj rows ss sched
  refine ⟨msgs, ss', sent, h1, fun i o ho c r hc => ?_⟩
  obtain ⟨q, h3⟩ := h2 i c r hc
  refine ⟨q, ?_⟩
  rw [h3]
  unfold StoreSystem.outcome at ho
  match hl : ((StoreSystem.started rows jobs).go S sched).left i, ho with
  | .error e, ho => cases ho; rfl
  | .ok (.done ids), ho => cases ho; rfl
  | .ok (.stmt s k), ho => cases ho

/-- the reaction to a command that prepares a statement or sends long data does not concern the tables. -/
theorem react_quiet (S : SqlServer) (hn : ∀ rows rows' p l, S.nextStmt ⟨rows, p, l⟩ = S.nextStmt ⟨rows', p, l⟩)
    {m : Bytes} (hm : m.head? = some 0x16 ∨ m.head? = some 0x18) (rows rows' : Tables) (p : Nat → Option Spec.Prep)
    (l : Spec.LongData) :
    S.react ⟨rows, p, l⟩ m = (S.react ⟨rows', p, l⟩ m).map fun x => (⟨rows, x.1.prepared, x.1.long⟩, x.2) := by
  match m, hm with
  | b :: bs, hm =>
    rcases hm with hm | hm
    · cases hm
      unfold Spec.SqlServer.react
      dsimp only
      rw [if_pos rfl]
      simp only [Option.bind_eq_bind]
      cases fromUtf8 bs with
      | none => rfl
      | some text =>
        simp only [Option.bind_some]
        cases Spec.tokens text with
        | none => rfl
        | some ts =>
          simp only [Option.bind_some]
          cases Spec.parsePrep ts with
          | none => rfl
          | some pr =>
            simp only [Option.bind_some]
            rw [hn rows rows' p l]
            split <;> rfl
    · cases hm
      unfold Spec.SqlServer.react
      dsimp only
      rw [if_neg (by decide), if_pos rfl]
      simp only [Option.bind_eq_bind]
      cases Spec.longStep l (0x18 :: bs) <;> rfl

/-- Nor does it matter when a program prepares its statements or sends their long data: such a command and one of another
connection may come in the other order, and everything else is the same.  So what holds with one statement after the other
also holds with the commands of the programs in any order. -/
theorem C107_swap (S : SqlServer) (hn : ∀ rows rows' p l, S.nextStmt ⟨rows, p, l⟩ = S.nextStmt ⟨rows', p, l⟩)
    {i j : Nat} (hij : i ≠ j) {m : Bytes} (hm : m.head? = some 0x16 ∨ m.head? = some 0x18) (m' : Bytes) (rows : Tables)
    (ss : Nat → Session) (a b : List (Nat × Bytes)) :
    S.talkEach rows ss (a ++ (i, m) :: (j, m') :: b) = S.talkEach rows ss (a ++ (j, m') :: (i, m) :: b) := by
  rw [talkEach_append, talkEach_append]
  congr 1
  funext x
  congr 1
  generalize x.1 = rows
  generalize x.2.1 = ss
  simp only [Spec.SqlServer.talkEach, Option.bind_eq_bind, if_neg hij, if_neg (Ne.symm hij)]
  rw [react_quiet S hn hm rows rows]
  cases h1 : S.react ⟨rows, (ss i).prepared, (ss i).long⟩ m with
  | none =>
    simp only [Option.map_none, Option.bind_none]
    cases S.react ⟨rows, (ss j).prepared, (ss j).long⟩ m' with
    | none => rfl
    | some y =>
      simp only [Option.bind_some]
      rw [react_quiet S hn hm y.1.rows rows, h1]
      rfl
  | some y =>
    simp only [Option.map_some, Option.bind_some]
    cases S.react ⟨rows, (ss j).prepared, (ss j).long⟩ m' with
    | none => rfl
    | some z =>
      simp only [Option.bind_some]
      rw [react_quiet S hn hm z.1.rows rows, h1]
      simp only [Option.map_some, Option.bind_some]
      have hss : (fun n => if n = j then (⟨z.1.prepared, z.1.long⟩ : Session) else
            if n = i then ⟨y.1.prepared, y.1.long⟩ else ss n) =
          fun n => if n = i then ⟨y.1.prepared, y.1.long⟩ else
            if n = j then ⟨z.1.prepared, z.1.long⟩ else ss n := by
        funext n
        by_cases h1 : n = i
        · rw [if_pos h1, if_pos h1, if_neg (by rw [h1]; exact hij)]
        · rw [if_neg h1, if_neg h1]
      rw [hss]
      cases S.talkEach z.1.rows (fun n => if n = i then ⟨y.1.prepared, y.1.long⟩ else
          if n = j then ⟨z.1.prepared, z.1.long⟩ else ss n) b with
      | none => rfl
      | some w =>
        simp only [Option.bind_some, Option.some.injEq, Prod.mk.injEq, true_and]
        funext n
        by_cases h1 : n = i
        · rw [if_pos h1, if_neg (by rw [h1]; exact hij), if_neg (by rw [h1]; exact hij), if_pos h1]
        · rw [if_neg h1, if_neg h1]

/-! ### what happened -/

theorem happens_append {S : SqlServer} {rows rows1 rows2 : Tables} {a b : List (Nat × StoreEvent)}
    (h1 : Happens S rows a rows1) (h2 : Happens S rows1 b rows2) : Happens S rows (a ++ b) rows2 := by
  induction h1 with
  | nil => exact h2
  | row h3 h4 _ ih => exact .row h3 h4 (ih h2)
  | change h3 _ ih => exact .change h3 (ih h2)

theorem happens_step {S : SqlServer} {rows : Tables} {s : StoreStep} (i : Nat)
    (h : S.refuses rows (S.after rows s) = none) : Happens S rows [(i, S.event rows s)] (S.after rows s) := by
  match s, h with
  | .row t fs, h => exact Happens.row (row := { table := t, fields := fs, id := _ }) h rfl .nil
  | .change .., h => exact .change h .nil

theorem eventsBy_append (i : Nat) (a b : List (Nat × StoreEvent)) :
    eventsBy i (a ++ b) = eventsBy i a ++ eventsBy i b := List.filterMap_append ..

theorem eventsBy_own (i : Nat) (e : StoreEvent) : eventsBy i [(i, e)] = [e] := by simp [eventsBy]

theorem eventsBy_other {i j : Nat} (h : j ≠ i) (e : StoreEvent) : eventsBy j [(i, e)] = [] := by
  simp [eventsBy, h.symm]

/-- how a program stands. -/
def Standing (S : SqlServer) (rows : Tables) (js : List StoreJob) (hist : List (Nat × StoreEvent)) (i : Nat) :
    Except Spec.SqlError (Script (List UInt64)) → Prop
  | .ok p => RanBy (Spec.jobsScript js) (eventsBy i hist) p
  | .error e => ∃ s k h1 h2 rows1, hist = h1 ++ h2 ∧ eventsBy i h2 = [] ∧
      RanBy (Spec.jobsScript js) (eventsBy i hist) (.stmt s k) ∧ Happens S rows h1 rows1 ∧
      S.refuses rows1 (S.after rows1 s) = some e

theorem stands (S : SqlServer) (jobs : Nat → List StoreJob) (rows : Tables) (sched : List Nat) :
    Happens S rows ((StoreSystem.started rows jobs).go S sched).hist ((StoreSystem.started rows jobs).go S sched).rows ∧
    ∀ i, Standing S rows (jobs i) ((StoreSystem.started rows jobs).go S sched).hist i
      (((StoreSystem.started rows jobs).go S sched).left i) := by
  induction sched using List.reverseRecOn with
  | nil => exact ⟨.nil, fun i => .nil⟩
  | append_singleton sched i ih =>
    rw [StoreSystem.go, List.foldl_append, List.foldl_cons, List.foldl_nil]
    rw [← StoreSystem.go]
    generalize (StoreSystem.started rows jobs).go S sched = x at ih ⊢
    obtain ⟨h1, h2⟩ := ih
    unfold StoreSystem.turn
    split
    next s k hl =>
      have hi := h2 i
      rw [hl] at hi
      cases hr : S.refuses x.rows (S.after x.rows s) with
      | some e =>
        refine ⟨h1, fun j => ?_⟩
        dsimp only
        by_cases hji : j = i
        · subst hji
          rw [if_pos rfl]
          exact ⟨s, k, x.hist, [], x.rows, by simp, rfl, hi, h1, hr⟩
        · rw [if_neg hji]
          exact h2 j
      | none =>
        refine ⟨happens_append h1 (happens_step i hr), fun j => ?_⟩
        dsimp only
        by_cases hji : j = i
        · subst hji
          rw [if_pos rfl]
          show RanBy _ (eventsBy j (x.hist ++ _)) _
          rw [eventsBy_append, eventsBy_own]
          exact hi.snoc x.rows
        · rw [if_neg hji]
          have := h2 j
          match x.left j, this with
          | .ok p, this =>
            show RanBy _ (eventsBy j (x.hist ++ _)) _
            rw [eventsBy_append, eventsBy_other hji, List.append_nil]
            exact this
          | .error e, ⟨s', k', a, b, rows1, e1, e2, e3, e4, e5⟩ =>
            refine ⟨s', k', a, b ++ [(i, S.event x.rows s)], rows1, by rw [e1, List.append_assoc], ?_, ?_, e4, e5⟩
            · rw [eventsBy_append, eventsBy_other hji, e2]
              rfl
            · rw [eventsBy_append, eventsBy_other hji, List.append_nil]
              exact e3
    · exact ⟨h1, h2⟩

/-- What the tables are: the statements took effect one after the other, each as a whole, none was undone.  Those of a
program are exactly what its jobs mean, in their order, whatever the others did meanwhile: every reference holds the id
that was reported to this program for the row it refers to.  One that failed did so at a statement of its own that the
server refused in the tables of that moment, and what it had stored before is there. -/
theorem C107_history (S : SqlServer) (jobs : Nat → List StoreJob) (hj : ∀ i, ∀ j ∈ jobs i, j.Fits) (rows : Tables)
    (sched : List Nat) (x : StoreSystem) (hx : x = (StoreSystem.started rows jobs).go S sched) :
    Happens S rows x.hist x.rows ∧
    ∀ i, match x.outcome i with
      | some (.ok ids) => Spec.JobsDone (jobs i) (eventsBy i x.hist) ids
      | some (.error e) => ∃ s h1 h2 rows1, x.hist = h1 ++ h2 ∧ eventsBy i h2 = [] ∧ Happens S rows h1 rows1 ∧
          Spec.JobsAt (jobs i) (eventsBy i x.hist) s ∧ S.refuses rows1 (S.after rows1 s) = some e
      | none => ∃ s, Spec.JobsAt (jobs i) (eventsBy i x.hist) s := by
  obtain ⟨h1, h2⟩ := stands S jobs rows sched
  rw [← hx] at h1 h2
  refine ⟨h1, fun i => ?_⟩
  have h := h2 i
  obtain ⟨r1, r2⟩ := jobs_ran (jobs i) (hj i)
  unfold StoreSystem.outcome
  match x.left i, h with
  | .ok (.done ids), h => exact r1 _ _ h
  | .ok (.stmt s k), h => exact ⟨s, r2 _ _ _ h⟩
  | .error e, ⟨s, k, a, b, rows1, e1, e2, e3, e4, e5⟩ => exact ⟨s, a, b, rows1, e1, e2, e4, r2 _ _ _ e3, e5⟩

/-- No program waits for another: with as many turns as it has models it has ended. -/
theorem C107_ends (S : SqlServer) (jobs : Nat → List StoreJob) (rows : Tables) (sched : List Nat) (i : Nat)
    (h : Spec.jobsModels (jobs i) ≤ sched.count i) :
    (((StoreSystem.started rows jobs).go S sched).outcome i).isSome = true := by
  have key : ∀ (sched : List Nat) (x : StoreSystem) (n : Nat), (∀ p, x.left i = .ok p → Within n p) →
      n ≤ sched.count i → ((x.go S sched).outcome i).isSome = true := by
    intro sched
    induction sched with
    | nil =>
      intro x n hp hn
      rw [List.count_nil, Nat.le_zero] at hn
      subst hn
      show (x.outcome i).isSome = true
      unfold StoreSystem.outcome
      match hl : x.left i with
      | .error e => rfl
      | .ok (.done ids) => rfl
      | .ok (.stmt s k) => exact (hp _ hl).elim
    | cons j sched ih =>
      intro x n hp hn
      show (((x.turn S j).go S sched).outcome i).isSome = true
      by_cases hji : j = i
      · subst hji
        rw [List.count_cons_self] at hn
        refine ih _ (n - 1) ?_ (by omega)
        intro p hl
        unfold StoreSystem.turn at hl
        split at hl
        next s k hl' =>
          have hw := hp _ hl'
          match n, hw with
          | n + 1, hw =>
            split at hl
            · dsimp only at hl
              rw [if_pos rfl] at hl
              cases hl
            · dsimp only at hl
              rw [if_pos rfl] at hl
              cases hl
              exact hw _
        next hne =>
          match p, hl with
          | .done _, hl => cases n - 1 <;> trivial
          | .stmt s k, hl => exact (hne s k hl).elim
      · rw [List.count_cons_of_ne hji] at hn
        refine ih _ n ?_ hn
        intro p hl
        apply hp
        unfold StoreSystem.turn at hl
        split at hl
        · split at hl
          · dsimp only at hl
            rwa [if_neg (Ne.symm hji)] at hl
          · dsimp only at hl
            rwa [if_neg (Ne.symm hji)] at hl
        · exact hl
  exact key sched _ _ (fun p hp => by cases hp; exact jobs_within _) h

end Verif

import Verif.Spec.StorePool
import Verif.Props.C107_StoreFound
import Verif.Props.C107_StoreUpdates
import Mathlib.Algebra.Order.BigOperators.Group.Finset

/-!
# C110 — tasks that share a pool may store models at the same time

In C107 every program has a connection of its own.  Here the tasks share the connections of a pool: for each
job a task takes one that nobody holds, stores, and gives it back, also after an error.
-/

namespace Verif

open Spec (SqlServer SqlState Tables Row Field Rec Insertable HasField Script StoreJob StoreStep StoreEvent StoreSystem StorePool StoreTask
  Served eventsBy cmdsBy)
open Spec.SqlServer (Stores meanings withRow Session Happens)

/-! ### on the connections -/

/-- calls one after the other on one connection; an error of one does not keep the next from being made. -/
def runEach : List StoreJob → Conn → List (Out Error UInt64) × Conn
  | [], c => ([], c)
  | j :: js, c => ((runJob j c).1 :: (runEach js (runJob j c).2).1, (runEach js (runJob j c).2).2)

theorem runEach_snoc (js : List StoreJob) (j : StoreJob) (c : Conn) {os : List (Out Error UInt64)} {c1 : Conn}
    (h : runEach js c = (os, c1)) : runEach (js ++ [j]) c = (os ++ [(runJob j c1).1], (runJob j c1).2) := by
  induction js generalizing c os with
  | nil => cases h; rfl
  | cons a js ih =>
    rw [runEach] at h
    cases h
    rw [List.cons_append, runEach, ih _ rfl]
    rfl

/-- what the caller gets. -/
def outOf (S : SqlServer) : Except Spec.SqlError UInt64 → Out Error UInt64
  | .ok id => .ok id
  | .error e => .err (refusal S e)

/-- a connection that nobody holds: everything asked on it was answered and read. -/
def Free (S : SqlServer) (served : List Served) (sent : Bytes) (cmds : List Bytes) : Prop :=
  ∀ (c : Conn) (r : List Rx), AtRest S c (rxOf sent ++ r) → ∃ q, runEach (served.map (·.job)) c =
    (served.map fun s => outOf S s.result, { c with rx := r, tx := c.tx ++ Spec.commands cmds, seqId := q })

/-- a connection on which `p` is left of the job `j`. -/
def Busy (S : SqlServer) (served : List Served) (j : StoreJob) (p : Script UInt64) (sent : Bytes) (cmds : List Bytes) :
    Prop :=
  ∀ (c : Conn) (r : List Rx), AtRest S c (rxOf sent ++ r) → ∃ q c1, runEach (served.map (·.job)) c =
    (served.map fun s => outOf S s.result, c1) ∧
    runJob j c1 = exec p { c with rx := r, tx := c.tx ++ Spec.commands cmds, seqId := q }

theorem Free.take {S : SqlServer} {served : List Served} {sent : Bytes} {cmds : List Bytes}
    (h : Free S served sent cmds) {j : StoreJob} (hj : j.Fits) : Busy S served j j.script sent cmds := by
  intro c r hc
  obtain ⟨q, h1⟩ := h c r hc
  exact ⟨q, _, h1, by rw [job_exec j hj]⟩

theorem Busy.done {S : SqlServer} {served : List Served} {j : StoreJob} {id : UInt64} {sent : Bytes} {cmds : List Bytes}
    (h : Busy S served j (.done id) sent cmds) (k i : Nat) : Free S (served ++ [⟨k, i, j, .ok id⟩]) sent cmds := by
  intro c r hc
  obtain ⟨q, c1, h1, h2⟩ := h c r hc
  refine ⟨q, ?_⟩
  rw [List.map_append, List.map_append]
  show runEach (_ ++ [j]) c = _
  rw [runEach_snoc _ j c h1, h2]
  rfl

theorem Busy.step {S : SqlServer} {served : List Served} {j : StoreJob} {s : StoreStep} {f : UInt64 → Script UInt64}
    {sent : Bytes} {cmds : List Bytes} (h : Busy S served j (.stmt s f) sent cmds) {sent2 : Bytes} {cmds2 : List Bytes}
    {id : UInt64} (h2 : ∀ (c : Conn) (r : List Rx), AtRest S c (rxOf sent2 ++ r) →
      ∃ q, runStep s c = (.ok id, { c with rx := r, tx := c.tx ++ Spec.commands cmds2, seqId := q })) :
    Busy S served j (f id) (sent ++ sent2) (cmds ++ cmds2) := by
  intro c r hc
  obtain ⟨q, c1, h1, h3⟩ := h c (rxOf sent2 ++ r)
    ⟨hc.pending, hc.faults, hc.track, hc.p41, by rw [hc.rx, rxOf_append, List.append_assoc]⟩
  obtain ⟨q2, h5⟩ := h2 _ r (hc.next (rxOf sent2 ++ r) (c.tx ++ Spec.commands cmds) q)
  refine ⟨q2, c1, h1, ?_⟩
  rw [h3, exec, SM.bind_of_ok h5, commands_append', ← List.append_assoc]

theorem Busy.fail {S : SqlServer} {served : List Served} {j : StoreJob} {s : StoreStep} {f : UInt64 → Script UInt64}
    {sent : Bytes} {cmds : List Bytes} (h : Busy S served j (.stmt s f) sent cmds) {sent2 : Bytes} {cmds2 : List Bytes}
    {e : Spec.SqlError} (h2 : ∀ (c : Conn) (r : List Rx), AtRest S c (rxOf sent2 ++ r) →
      ∃ q, runStep s c = (.err (refusal S e), { c with rx := r, tx := c.tx ++ Spec.commands cmds2, seqId := q }))
    (k i : Nat) : Free S (served ++ [⟨k, i, j, .error e⟩]) (sent ++ sent2) (cmds ++ cmds2) := by
  intro c r hc
  obtain ⟨q, c1, h1, h3⟩ := h c (rxOf sent2 ++ r)
    ⟨hc.pending, hc.faults, hc.track, hc.p41, by rw [hc.rx, rxOf_append, List.append_assoc]⟩
  obtain ⟨q2, h5⟩ := h2 _ r (hc.next (rxOf sent2 ++ r) (c.tx ++ Spec.commands cmds) q)
  refine ⟨q2, ?_⟩
  rw [List.map_append, List.map_append]
  show runEach (_ ++ [j]) c = _
  rw [runEach_snoc _ j c h1, h3, exec, SM.bind_of_err h5, commands_append', ← List.append_assoc]
  rfl

/-- what holds on the way. -/
structure Sharing (S : SqlServer) (jobs : Nat → List StoreJob) (x : StorePool) (sent : Nat → Bytes)
    (cmds : Nat → List Bytes) : Prop where
  rest : ∀ i t, x.task i = .ok t → ∀ j ∈ t.rest, j ∈ jobs i
  now : ∀ i ids k j p rest, x.task i = .ok ⟨ids, some (k, j, p), rest⟩ →
    x.held k = some i ∧ ScriptAll (fun _ => True) p ∧ Busy S (x.servedOn k) j p (sent k) (cmds k)
  free : ∀ k, x.held k = none → Free S (x.servedOn k) (sent k) (cmds k)

theorem servedOn_own (l : List Served) (s : Served) {k : Nat} (h : s.conn = k) :
    (l ++ [s]).filter (fun a => a.conn = k) = l.filter (fun a => a.conn = k) ++ [s] := by
  simp [h]

theorem servedOn_other (l : List Served) (s : Served) {k : Nat} (h : k ≠ s.conn) :
    (l ++ [s]).filter (fun a => a.conn = k) = l.filter (fun a => a.conn = k) := by
  simp [List.filter_append, Ne.symm h]

/-- along every schedule there is the conversation of all connections with the server. -/
theorem sharing (S : SqlServer) (hS : Fair S) (jobs : Nat → List StoreJob) (hj : ∀ i, ∀ j ∈ jobs i, j.Fits)
    (rows : Tables) (ss : Nat → Session) (sched : List (Nat × Nat)) :
    ∃ msgs ss' sent, S.talkEach rows ss msgs = some (((StorePool.started rows jobs).go S sched).rows, ss', sent) ∧
      Sharing S jobs ((StorePool.started rows jobs).go S sched) sent (fun k => cmdsBy k msgs) := by
  induction sched using List.reverseRecOn with
  | nil =>
    refine ⟨[], ss, fun _ => [], rfl, ?_, ?_, ?_⟩
    · intro i t ht
      cases ht
      exact fun j hj => hj
    · intro i ids k j p rest h
      cases h
    · intro k _ c r hc
      refine ⟨c.seqId, ?_⟩
      have h := hc.rx
      rw [rxOf_nil, List.nil_append] at h
      show ([], c) = ([], _)
      simp [Spec.commands, Spec.cmdsBy, ← h]
  | append_singleton sched t ih =>
    obtain ⟨i, k⟩ := t
    rw [StorePool.go, List.foldl_append, List.foldl_cons, List.foldl_nil]
    rw [← StorePool.go]
    generalize (StorePool.started rows jobs).go S sched = x at ih ⊢
    obtain ⟨msgs, ss1, sent, t1, t2⟩ := ih
    unfold StorePool.turn
    dsimp only
    split
    next ids j rest hl =>
      split
      next hk =>
        refine ⟨msgs, ss1, sent, t1, ?_, ?_, ?_⟩
        · intro n t ht
          dsimp only at ht
          split at ht
          next hn =>
            subst hn
            cases ht
            exact fun j' hj' => t2.rest _ _ hl j' (List.mem_cons_of_mem _ hj')
          · exact t2.rest n t ht
        · intro n ids' k' j' p' rest' ht
          dsimp only at ht ⊢
          split at ht
          next hn =>
            subst hn
            cases ht
            have hf := hj n j (t2.rest _ _ hl j (List.mem_cons_self ..))
            exact ⟨if_pos rfl, job_all j hf, (t2.free k hk).take hf⟩
          next hn =>
            obtain ⟨a, b, d⟩ := t2.now n ids' k' j' p' rest' ht
            refine ⟨?_, b, d⟩
            rw [if_neg]
            · exact a
            · rintro rfl
              rw [hk] at a
              cases a
        · intro k' hk'
          dsimp only at hk'
          split at hk'
          · cases hk'
          · exact t2.free k' hk'
      · exact ⟨msgs, ss1, sent, t1, t2⟩
    next ids k' j s f rest hl =>
      obtain ⟨hh, hst, hb⟩ := t2.now i _ _ _ _ _ hl
      obtain ⟨cmds, sent2, st2, g1, g2, g3⟩ := step_talk S hS ⟨x.rows, (ss1 k').prepared, (ss1 k').long⟩ hst.1
      have hlift := talk_each S k' g1 ss1 rfl
      have htalk : S.talkEach rows ss (msgs ++ cmds.map fun m => (k', m)) = some (st2.rows,
          (fun n => if n = k' then ⟨st2.prepared, st2.long⟩ else ss1 n),
          fun j => sent j ++ if j = k' then sent2 else []) := by
        rw [talkEach_append, t1, Option.bind_some, hlift]
        rfl
      cases hr : S.refuses x.rows (S.after x.rows s) with
      | some e =>
        obtain ⟨k1, k2⟩ := g3 e hr
        refine ⟨_, _, _, by rw [htalk, k1], ?_, ?_, ?_⟩
        · intro n t ht
          dsimp only at ht
          split at ht
          · cases ht
          · exact t2.rest n t ht
        · intro n ids' k'' j' p' rest' ht
          dsimp only at ht ⊢
          split at ht
          · cases ht
          next hn =>
            obtain ⟨a, b, d⟩ := t2.now n ids' k'' j' p' rest' ht
            have hne : k'' ≠ k' := by
              rintro rfl
              rw [hh] at a
              cases a
              exact hn rfl
            rw [if_neg hne, if_neg hne, List.append_nil, cmdsBy_append, cmdsBy_other hne, List.append_nil,
              StorePool.servedOn, servedOn_other _ _ hne]
            exact ⟨a, b, d⟩
        · intro k'' hk''
          dsimp only at hk'' ⊢
          by_cases hne : k'' = k'
          · subst hne
            rw [if_pos rfl, cmdsBy_append, cmdsBy_own, StorePool.servedOn]
            have := hb.fail k2 k'' i
            rwa [StorePool.servedOn, ← servedOn_own _ _ (show _ = k'' from rfl)] at this
          · rw [if_neg hne] at hk''
            rw [if_neg hne, List.append_nil, cmdsBy_append, cmdsBy_other hne, List.append_nil,
              StorePool.servedOn, servedOn_other _ _ hne]
            exact t2.free k'' hk''
      | none =>
        obtain ⟨k1, k2⟩ := g2 hr
        refine ⟨_, _, _, by rw [htalk, k1], ?_, ?_, ?_⟩
        · intro n t ht
          dsimp only at ht
          split at ht
          next hn =>
            subst hn
            cases ht
            exact fun j' hj' => t2.rest _ _ hl j' hj'
          · exact t2.rest n t ht
        · intro n ids' k'' j' p' rest' ht
          dsimp only at ht ⊢
          split at ht
          next hn =>
            subst hn
            cases ht
            rw [if_pos rfl, cmdsBy_append, cmdsBy_own]
            exact ⟨hh, hst.2 _, hb.step k2⟩
          next hn =>
            obtain ⟨a, b, d⟩ := t2.now n ids' k'' j' p' rest' ht
            have hne : k'' ≠ k' := by
              rintro rfl
              rw [hh] at a
              cases a
              exact hn rfl
            rw [if_neg hne, List.append_nil, cmdsBy_append, cmdsBy_other hne, List.append_nil]
            exact ⟨a, b, d⟩
        · intro k'' hk''
          dsimp only at hk'' ⊢
          have hne : k'' ≠ k' := by
            rintro rfl
            rw [hh] at hk''
            cases hk''
          rw [if_neg hne, List.append_nil, cmdsBy_append, cmdsBy_other hne, List.append_nil]
          exact t2.free k'' hk''
    next ids k' j id rest hl =>
      obtain ⟨hh, hst, hb⟩ := t2.now i _ _ _ _ _ hl
      refine ⟨msgs, ss1, sent, t1, ?_, ?_, ?_⟩
      · intro n t ht
        dsimp only at ht
        split at ht
        next hn =>
          subst hn
          cases ht
          exact fun j' hj' => t2.rest _ _ hl j' hj'
        · exact t2.rest n t ht
      · intro n ids' k'' j' p' rest' ht
        dsimp only at ht ⊢
        split at ht
        · cases ht
        next hn =>
          obtain ⟨a, b, d⟩ := t2.now n ids' k'' j' p' rest' ht
          have hne : k'' ≠ k' := by
            rintro rfl
            rw [hh] at a
            cases a
            exact hn rfl
          rw [if_neg hne, StorePool.servedOn, servedOn_other _ _ hne]
          exact ⟨a, b, d⟩
      · intro k'' hk''
        dsimp only at hk'' ⊢
        by_cases hne : k'' = k'
        · subst hne
          have := hb.done k'' i
          rw [StorePool.servedOn, ← servedOn_own _ _ (show _ = k'' from rfl)] at this
          exact this
        · rw [if_neg hne] at hk''
          rw [StorePool.servedOn, servedOn_other _ _ hne]
          exact t2.free k'' hk''
    · exact ⟨msgs, ss1, sent, t1, t2⟩

/-- **C110**: however the statements of the tasks come after each other and whichever free connections they take, there is
a conversation of all connections with the server that leaves these tables, in which on each connection that nobody
holds exactly the jobs served on it were done, one after the other: each sent its commands, read exactly the answers to
them, got the id of its own row or the error that its own statement got, and left the connection at rest for the next. -/
theorem C110_run (S : SqlServer) (hS : Fair S) (jobs : Nat → List StoreJob) (hj : ∀ i, ∀ j ∈ jobs i, j.Fits)
    (rows : Tables) (ss : Nat → Session) (sched : List (Nat × Nat)) (x : StorePool)
    (hx : x = (StorePool.started rows jobs).go S sched) :
    ∃ msgs ss' sent, S.talkEach rows ss msgs = some (x.rows, ss', sent) ∧
      ∀ k, x.held k = none → ∀ (c : Conn) (r : List Rx), AtRest S c (rxOf (sent k) ++ r) → ∃ q,
        runEach ((x.servedOn k).map (·.job)) c = ((x.servedOn k).map fun s => outOf S s.result,
          { c with rx := r, tx := c.tx ++ Spec.commands (cmdsBy k msgs), seqId := q }) := by
  obtain ⟨msgs, ss', sent, h1, h2⟩ := sharing S hS jobs hj rows ss sched
  rw [← hx] at h1 h2
  exact ⟨msgs, ss', sent, h1, h2.free⟩

/-! ### who holds which connection -/

/-- along every schedule, the connection somebody holds is the one their job is done on. -/
theorem holders (S : SqlServer) (jobs : Nat → List StoreJob) (rows : Tables) (sched : List (Nat × Nat)) (k i : Nat) :
    ((StorePool.started rows jobs).go S sched).held k = some i ↔
      ∃ ids j p rest, ((StorePool.started rows jobs).go S sched).task i = .ok ⟨ids, some (k, j, p), rest⟩ := by
  induction sched using List.reverseRecOn generalizing k i with
  | nil =>
    constructor
    · intro h
      cases h
    · rintro ⟨ids, j, p, rest, h⟩
      cases h
  | append_singleton sched t ih =>
    obtain ⟨i0, k0⟩ := t
    rw [StorePool.go, List.foldl_append, List.foldl_cons, List.foldl_nil]
    rw [← StorePool.go]
    generalize (StorePool.started rows jobs).go S sched = x at ih ⊢
    unfold StorePool.turn
    dsimp only
    split
    next ids j rest hl =>
      split
      next hk =>
        dsimp only
        by_cases h1 : k = k0
        · subst h1
          rw [if_pos rfl]
          constructor
          · intro h
            cases h
            exact ⟨ids, j, j.script, rest, if_pos rfl⟩
          · rintro ⟨ids', j', p', rest', h⟩
            by_cases h2 : i = i0
            · rw [h2]
            · rw [if_neg h2] at h
              rw [(ih k i).2 ⟨ids', j', p', rest', h⟩] at hk
              cases hk
        · rw [if_neg h1, ih]
          by_cases h2 : i = i0
          · subst h2
            rw [if_pos rfl, hl]
            constructor
            · rintro ⟨ids', j', p', rest', h⟩
              cases h
            · rintro ⟨ids', j', p', rest', h⟩
              cases h
              exact (h1 rfl).elim
          · rw [if_neg h2]
      · exact ih k i
    next ids k' j s f rest hl =>
      have hh := (ih k' i0).2 ⟨_, _, _, _, hl⟩
      split
      · dsimp only
        by_cases h1 : k = k'
        · subst h1
          rw [if_pos rfl]
          constructor
          · intro h
            cases h
          · rintro ⟨ids', j', p', rest', h⟩
            by_cases h2 : i = i0
            · rw [if_pos h2] at h
              cases h
            · rw [if_neg h2] at h
              have := (ih k i).2 ⟨ids', j', p', rest', h⟩
              rw [hh] at this
              cases this
              exact (h2 rfl).elim
        · rw [if_neg h1, ih]
          by_cases h2 : i = i0
          · subst h2
            rw [if_pos rfl, hl]
            constructor
            · rintro ⟨ids', j', p', rest', h⟩
              cases h
              exact (h1 rfl).elim
            · rintro ⟨ids', j', p', rest', h⟩
              cases h
          · rw [if_neg h2]
      · dsimp only
        rw [ih]
        by_cases h2 : i = i0
        · subst h2
          rw [if_pos rfl, hl]
          constructor
          · rintro ⟨ids', j', p', rest', h⟩
            cases h
            exact ⟨_, _, _, _, rfl⟩
          · rintro ⟨ids', j', p', rest', h⟩
            cases h
            exact ⟨_, _, _, _, rfl⟩
        · rw [if_neg h2]
    next ids k' j id rest hl =>
      have hh := (ih k' i0).2 ⟨_, _, _, _, hl⟩
      dsimp only
      by_cases h1 : k = k'
      · subst h1
        rw [if_pos rfl]
        constructor
        · intro h
          cases h
        · rintro ⟨ids', j', p', rest', h⟩
          by_cases h2 : i = i0
          · rw [if_pos h2] at h
            cases h
          · rw [if_neg h2] at h
            have := (ih k i).2 ⟨ids', j', p', rest', h⟩
            rw [hh] at this
            cases this
            exact (h2 rfl).elim
      · rw [if_neg h1, ih]
        by_cases h2 : i = i0
        · subst h2
          rw [if_pos rfl, hl]
          constructor
          · rintro ⟨ids', j', p', rest', h⟩
            cases h
            exact (h1 rfl).elim
          · rintro ⟨ids', j', p', rest', h⟩
            cases h
        · rw [if_neg h2]
    · exact ih k i

/-! ### what the tasks got -/

/-- the jobs of a task that have been served, and those to come. -/
def Progress (js : List StoreJob) (served : List (StoreJob × Except Spec.SqlError UInt64)) :
    Except Spec.SqlError StoreTask → Prop
  | .ok t => ∃ a, js = a ++ (t.now.map (·.2.1)).toList ++ t.rest ∧ a.length = t.ids.length ∧
      served = a.zip (t.ids.map .ok)
  | .error e => ∃ a j b, ∃ ids : List UInt64, js = a ++ j :: b ∧ a.length = ids.length ∧ served = a.zip (ids.map .ok) ++ [(j, .error e)]

theorem servedFor_own (l : List Served) (s : Served) {i : Nat} (h : s.task = i) :
    (l ++ [s]).filter (fun a => a.task = i) = l.filter (fun a => a.task = i) ++ [s] := by
  simp [h]

theorem servedFor_other (l : List Served) (s : Served) {i : Nat} (h : i ≠ s.task) :
    (l ++ [s]).filter (fun a => a.task = i) = l.filter (fun a => a.task = i) := by
  simp [List.filter_append, Ne.symm h]

theorem progressing (S : SqlServer) (jobs : Nat → List StoreJob) (rows : Tables) (sched : List (Nat × Nat)) (i : Nat) :
    Progress (jobs i) ((((StorePool.started rows jobs).go S sched).servedFor i).map fun s => (s.job, s.result))
      (((StorePool.started rows jobs).go S sched).task i) := by
  induction sched using List.reverseRecOn with
  | nil => exact ⟨[], rfl, rfl, rfl⟩
  | append_singleton sched t ih =>
    obtain ⟨i0, k0⟩ := t
    rw [StorePool.go, List.foldl_append, List.foldl_cons, List.foldl_nil]
    rw [← StorePool.go]
    generalize (StorePool.started rows jobs).go S sched = x at ih ⊢
    unfold StorePool.turn
    dsimp only
    split
    next ids j rest hl =>
      split
      · dsimp only
        by_cases h2 : i = i0
        · subst h2
          rw [if_pos rfl]
          rw [hl] at ih
          obtain ⟨a, a1, a2, a3⟩ := ih
          exact ⟨a, by simpa using a1, a2, a3⟩
        · rw [if_neg h2]
          exact ih
      · exact ih
    next ids k' j s f rest hl =>
      split
      next e he =>
        dsimp only
        by_cases h2 : i = i0
        · subst h2
          rw [if_pos rfl]
          rw [hl] at ih
          obtain ⟨a, a1, a2, a3⟩ := ih
          refine ⟨a, j, rest, ids, by simpa using a1, a2, ?_⟩
          rw [StorePool.servedFor] at a3 ⊢
          rw [servedFor_own _ _ (show _ = i from rfl), List.map_append, a3]
          rfl
        · rw [if_neg h2, StorePool.servedFor, servedFor_other _ _ h2]
          exact ih
      · dsimp only
        by_cases h2 : i = i0
        · subst h2
          rw [if_pos rfl]
          rw [hl] at ih
          obtain ⟨a, a1, a2, a3⟩ := ih
          exact ⟨a, a1, a2, a3⟩
        · rw [if_neg h2]
          exact ih
    next ids k' j id rest hl =>
      dsimp only
      by_cases h2 : i = i0
      · subst h2
        rw [if_pos rfl]
        rw [hl] at ih
        obtain ⟨a, a1, a2, a3⟩ := ih
        refine ⟨a ++ [j], by simpa using a1, by simpa using a2, ?_⟩
        rw [StorePool.servedFor] at a3 ⊢
        rw [servedFor_own _ _ (show _ = i from rfl), List.map_append, a3]
        dsimp only at a2 ⊢
        rw [List.map_append, List.zip_append (by simpa using a2)]
        rfl
      · rw [if_neg h2, StorePool.servedFor, servedFor_other _ _ h2]
        exact ih
    · exact ih

/-- What a task gets is what its calls got, on whichever connections they were made: with the ids all its jobs were
served, in their order, and these are their ids; with an error those before the one that failed were. -/
theorem C110_served (S : SqlServer) (jobs : Nat → List StoreJob) (rows : Tables) (sched : List (Nat × Nat))
    (x : StorePool) (hx : x = (StorePool.started rows jobs).go S sched) (i : Nat) :
    match x.outcome i with
    | some (.ok ids) => (jobs i).length = ids.length ∧
        (x.servedFor i).map (fun s => (s.job, s.result)) = (jobs i).zip (ids.map .ok)
    | some (.error e) => ∃ a j b, ∃ ids : List UInt64, jobs i = a ++ j :: b ∧ a.length = ids.length ∧
        (x.servedFor i).map (fun s => (s.job, s.result)) = a.zip (ids.map .ok) ++ [(j, .error e)]
    | none => True := by
  have h := progressing S jobs rows sched i
  rw [← hx] at h
  unfold StorePool.outcome
  match x.task i, h with
  | .error e, h => exact h
  | .ok ⟨ids, none, []⟩, ⟨a, a1, a2, a3⟩ =>
    have : jobs i = a := by simpa using a1
    subst this
    exact ⟨a2, a3⟩
  | .ok ⟨ids, some _, _⟩, _ => trivial
  | .ok ⟨ids, none, _ :: _⟩, _ => trivial

/-- Nobody else uses a connection that a task holds. -/
theorem C110_alone (S : SqlServer) (jobs : Nat → List StoreJob) (rows : Tables) (sched : List (Nat × Nat))
    (x : StorePool) (hx : x = (StorePool.started rows jobs).go S sched) {i i' k : Nat} {t t' : StoreTask}
    (h : x.task i = .ok t) (h' : x.task i' = .ok t') (hk : t.now.map (·.1) = some k) (hk' : t'.now.map (·.1) = some k) :
    i = i' := by
  obtain ⟨ids, now, rest⟩ := t
  obtain ⟨ids', now', rest'⟩ := t'
  match now, now', hk, hk' with
  | some (_, j, p), some (_, j', p'), hk, hk' =>
    cases hk
    cases hk'
    subst hx
    have a := (holders S jobs rows sched _ i).2 ⟨_, _, _, _, h⟩
    have b := (holders S jobs rows sched _ i').2 ⟨_, _, _, _, h'⟩
    rw [a] at b
    cases b
    rfl

/-! ### what happened -/

theorem andThen_assoc {α β γ : Type} (p : Script α) (f : α → Script β) (g : β → Script γ) :
    (p.andThen f).andThen g = p.andThen fun a => (f a).andThen g := by
  induction p with
  | done a => rfl
  | stmt s k ih =>
    simp only [Script.andThen]
    congr 1
    funext id
    exact ih id

theorem andThen_done {α : Type} (p : Script α) : p.andThen .done = p := by
  induction p with
  | done a => rfl
  | stmt s k ih =>
    simp only [Script.andThen]
    congr 1
    funext id
    exact ih id

/-- everything left to a task. -/
def allLeft : Except Spec.SqlError StoreTask → Except Spec.SqlError (Script (List UInt64))
  | .error e => .error e
  | .ok ⟨ids, none, rest⟩ => .ok ((Spec.jobsScript rest).andThen fun l => .done (ids ++ l))
  | .ok ⟨ids, some (_, _, p), rest⟩ =>
    .ok (p.andThen fun id => (Spec.jobsScript rest).andThen fun l => .done (ids ++ id :: l))

/-- Sharing changes nothing else: the tables, what happened and how the tasks ended are as with a connection for every
task, with their statements in the same order. -/
theorem C110_tasks (S : SqlServer) (jobs : Nat → List StoreJob) (rows : Tables) (sched : List (Nat × Nat))
    (x : StorePool) (hx : x = (StorePool.started rows jobs).go S sched) :
    ∃ sched', ((StoreSystem.started rows jobs).go S sched').rows = x.rows ∧
      ((StoreSystem.started rows jobs).go S sched').hist = x.hist ∧
      (∀ i o, x.outcome i = some o → ((StoreSystem.started rows jobs).go S sched').outcome i = some o) ∧
      ∀ i, ((StoreSystem.started rows jobs).go S sched').left i = allLeft (x.task i) := by
  subst hx
  have key : ∃ sched', ((StoreSystem.started rows jobs).go S sched').rows = ((StorePool.started rows jobs).go S sched).rows ∧
      ((StoreSystem.started rows jobs).go S sched').hist = ((StorePool.started rows jobs).go S sched).hist ∧
      ∀ i, ((StoreSystem.started rows jobs).go S sched').left i =
        allLeft (((StorePool.started rows jobs).go S sched).task i) := by
    induction sched using List.reverseRecOn with
    | nil =>
      refine ⟨[], rfl, rfl, fun i => ?_⟩
      show Except.ok _ = Except.ok ((Spec.jobsScript (jobs i)).andThen fun l => .done l)
      rw [show (fun l : List UInt64 => Script.done l) = Script.done from rfl, andThen_done]
    | append_singleton sched t ih =>
      obtain ⟨i0, k0⟩ := t
      rw [StorePool.go, List.foldl_append, List.foldl_cons, List.foldl_nil]
      rw [← StorePool.go]
      generalize (StorePool.started rows jobs).go S sched = x at ih ⊢
      obtain ⟨sched', e1, e2, e3⟩ := ih
      unfold StorePool.turn
      dsimp only
      split
      next ids j rest hl =>
        split
        · refine ⟨sched', e1, e2, fun i => ?_⟩
          dsimp only
          by_cases h2 : i = i0
          · subst h2
            rw [if_pos rfl, e3, hl]
            simp only [allLeft, Spec.jobsScript, andThen_assoc, Script.andThen]
          · rw [if_neg h2, e3]
        · exact ⟨sched', e1, e2, e3⟩
      next ids k' j s f rest hl =>
        have h3 := e3 i0
        rw [hl] at h3
        simp only [allLeft, Script.andThen] at h3
        generalize hy : (StoreSystem.started rows jobs).go S sched' = y at e1 e2 e3 h3
        have hturn : (StoreSystem.started rows jobs).go S (sched' ++ [i0]) = y.turn S i0 := by
          rw [StoreSystem.go, List.foldl_append, List.foldl_cons, List.foldl_nil, ← StoreSystem.go, hy]
        split
        next e he =>
          refine ⟨sched' ++ [i0], ?_⟩
          rw [hturn]
          unfold StoreSystem.turn
          rw [h3]
          dsimp only
          rw [e1, he]
          dsimp only
          refine ⟨rfl, e2, fun i => ?_⟩
          by_cases h2 : i = i0
          · rw [if_pos h2, if_pos h2]
            rfl
          · rw [if_neg h2, if_neg h2, e3]
        next he =>
          refine ⟨sched' ++ [i0], ?_⟩
          rw [hturn]
          unfold StoreSystem.turn
          rw [h3]
          dsimp only
          rw [e1, he]
          dsimp only
          refine ⟨rfl, by rw [e2], fun i => ?_⟩
          by_cases h2 : i = i0
          · rw [if_pos h2, if_pos h2]
            rfl
          · rw [if_neg h2, if_neg h2, e3]
      next ids k' j id rest hl =>
        refine ⟨sched', e1, e2, fun i => ?_⟩
        dsimp only
        by_cases h2 : i = i0
        · subst h2
          rw [if_pos rfl, e3, hl]
          simp only [allLeft, Script.andThen, List.append_assoc, List.singleton_append]
        · rw [if_neg h2, e3]
      · exact ⟨sched', e1, e2, e3⟩
  obtain ⟨sched', e1, e2, e3⟩ := key
  refine ⟨sched', e1, e2, fun i o ho => ?_, e3⟩
  have := e3 i
  unfold StoreSystem.outcome
  unfold StorePool.outcome at ho
  rw [this]
  match ((StorePool.started rows jobs).go S sched).task i, ho with
  | .error e, ho => cases ho; rfl
  | .ok ⟨ids, none, []⟩, ho =>
    cases ho
    simp [allLeft, Spec.jobsScript, Script.andThen, Script.result]

/-- What the tables are: as in C107, the statements took effect one after the other, each as a whole, none was undone;
those of a task are exactly what its jobs mean, in their order, whatever the others did meanwhile. -/
theorem C110_history (S : SqlServer) (jobs : Nat → List StoreJob) (hj : ∀ i, ∀ j ∈ jobs i, j.Fits) (rows : Tables)
    (sched : List (Nat × Nat)) (x : StorePool) (hx : x = (StorePool.started rows jobs).go S sched) :
    Happens S rows x.hist x.rows ∧
    ∀ i, match x.outcome i with
      | some (.ok ids) => Spec.JobsDone (jobs i) (eventsBy i x.hist) ids
      | some (.error e) => ∃ s h1 h2 rows1, x.hist = h1 ++ h2 ∧ eventsBy i h2 = [] ∧ Happens S rows h1 rows1 ∧
          Spec.JobsAt (jobs i) (eventsBy i x.hist) s ∧ S.refuses rows1 (S.after rows1 s) = some e
      | none => (∃ s, Spec.JobsAt (jobs i) (eventsBy i x.hist) s) ∨
          ∃ ids, Spec.JobsDone (jobs i) (eventsBy i x.hist) ids := by
  obtain ⟨sched', e1, e2, e3, e4⟩ := C110_tasks S jobs rows sched x hx
  obtain ⟨h1, h2⟩ := C107_history S jobs hj rows sched' _ rfl
  rw [e1, e2] at h1
  refine ⟨h1, fun i => ?_⟩
  have h := h2 i
  rw [e2] at h
  match ho : x.outcome i with
  | some (.ok ids) =>
    rw [e3 i _ ho] at h
    exact h
  | some (.error e) =>
    rw [e3 i _ ho] at h
    exact h
  | none =>
    match hy : ((StoreSystem.started rows jobs).go S sched').outcome i with
    | none =>
      rw [hy] at h
      exact .inl h
    | some (.ok ids) =>
      rw [hy] at h
      exact .inr ⟨ids, h⟩
    | some (.error e) =>
      unfold StoreSystem.outcome at hy
      rw [e4 i] at hy
      unfold StorePool.outcome at ho
      match x.task i, ho, hy with
      | .ok ⟨ids, none, j :: rest⟩, _, hy =>
        simp [allLeft] at hy
      | .ok ⟨ids, some (_, _, p), rest⟩, _, hy =>
        simp [allLeft] at hy

/-- **C110**, models: whole models that tasks inserted are kept as they were given, each once, whatever the others did. -/
theorem C110_kept (S : SqlServer) (jobs : Nat → List StoreJob) (hj : ∀ i, ∀ j ∈ jobs i, j.Fits)
    (hins : ∀ i, ∀ j ∈ jobs i, ∃ m, j = .insert m) (rows : Tables) (sched : List (Nat × Nat)) (x : StorePool)
    (hx : x = (StorePool.started rows jobs).go S sched) (m : ModelDef) (hs : Spec.ModelDef.Sound m)
    (hkd : (S.database x.rows).Keyed m) (progs : List Nat) (hp : progs.Nodup) (mvs : Nat → List ModelVal)
    (ids : Nat → List UInt64)
    (hm : ∀ i ∈ progs, jobs i = insertsOf (mvs i) ∧ (∀ mv ∈ mvs i, Insertable S m mv) ∧
      x.outcome i = some (.ok (ids i))) :
    ∃ added news, x.rows m.table = rows m.table ++ added ∧ news.Subperm added ∧
      List.Forall₂ (Kept S x.rows m) (progs.flatMap fun i => (mvs i).zip (ids i)) news := by
  obtain ⟨sched', e1, -, e3, -⟩ := C110_tasks S jobs rows sched x hx
  have h := C107_kept S jobs hj hins rows sched' _ rfl m hs (by rw [e1]; exact hkd) progs hp mvs ids
    fun i hi => ⟨(hm i hi).1, (hm i hi).2.1, e3 i _ (hm i hi).2.2⟩
  rwa [e1] at h

/-- **C110**, querying: a query of the type on any connection finds each of these models once, as it was given. -/
theorem C110_found {X : Type} (S : SqlServer) (jobs : Nat → List StoreJob) (hj : ∀ i, ∀ j ∈ jobs i, j.Fits)
    (hins : ∀ i, ∀ j ∈ jobs i, ∃ m, j = .insert m) (rows0 : Tables) (sched : List (Nat × Nat)) (x : StorePool)
    (hx : x = (StorePool.started rows0 jobs).go S sched) (m : ModelDef) (hs : Spec.ModelDef.Sound m)
    (hkd : (S.database x.rows).Keyed m) (progs : List Nat) (hp : progs.Nodup) (mvs : Nat → List ModelVal)
    (ids : Nat → List UInt64)
    (hm : ∀ i ∈ progs, jobs i = insertsOf (mvs i) ∧ (∀ mv ∈ mvs i, Insertable S m mv) ∧
      x.outcome i = some (.ok (ids i)))
    (fp : FloatParse) (conv : List Str × Str → Value → Out ParseError X) (c : Conn)
    (ts : List Spec.Tok) (q : Spec.Select) (descs : List Spec.ColDesc) (cols : List Column)
    (rows : List (List Spec.Datum)) (ps : List Bytes) (status warnings : Nat) (r : List Rx)
    (ht : Spec.tokens (buildQuery m) = some ts) (hq : Spec.parseSelect ts = some q)
    (hdc : DescsAs descs cols) (hl : descs.length < 2 ^ 56)
    (hds : descs.map (fun d => (d.table, d.orgName)) = q.items)
    (hperm : rows.Perm ((S.database x.rows).select q)) (htr : TextRows fp cols rows ps)
    (hconv : ∀ r ∈ x.rows m.table, ∀ p c v r', HasField m p c →
      (S.database x.rows).follow m r p = some r' → Spec.meaning v = r' c → ∃ y, conv (p, c) v = .ok y)
    (hc : AtRest S c (rxOf (Spec.framesAll (UInt8.ofNat (Spec.frameCount (0x03 :: utf8 (buildQuery m))))
      (Spec.resultSet descs ps status warnings)) ++ r)) :
    ∃ c1 c2 ok objs, query (buildQuery m) c = (.ok { columns := cols, okPacket := none }, c1) ∧
      RSet.collect (textReader fp (buildModel conv m)) { columns := cols, okPacket := none } c1
        = (.ok ({ columns := cols, okPacket := some ok }, objs), c2) ∧
      ∃ found, found.Subperm objs ∧
        List.Forall₂ (IsModel S conv m) (progs.flatMap fun i => (mvs i).zip (ids i)) found := by
  obtain ⟨sched', e1, -, e3, -⟩ := C110_tasks S jobs rows0 sched x hx
  exact C107_found S jobs hj hins rows0 sched' _ rfl m hs (by rw [e1]; exact hkd) progs hp mvs ids
    (fun i hi => ⟨(hm i hi).1, (hm i hi).2.1, e3 i _ (hm i hi).2.2⟩) fp conv c ts q descs cols rows ps status warnings r
    ht hq hdc hl hds (by rw [e1]; exact hperm) htr (by rw [e1]; exact hconv) hc

/-! ### the end -/

/-- how much is left to a task: a turn for every model, one to take a connection and one to give it back for every job. -/
def LeftWithin (n : Nat) : Except Spec.SqlError StoreTask → Prop
  | .error _ => True
  | .ok ⟨_, none, rest⟩ => Spec.jobsModels rest + 2 * rest.length ≤ n
  | .ok ⟨_, some (_, _, p), rest⟩ => ∃ m, Within m p ∧ m + 1 + (Spec.jobsModels rest + 2 * rest.length) ≤ n

theorem jobsModels_cons (j : StoreJob) (js : List StoreJob) :
    Spec.jobsModels (j :: js) = Spec.jobsModels [j] + Spec.jobsModels js := by
  simp [Spec.jobsModels]

/-- a turn that changes something leaves less to do. -/
theorem turn_less (S : SqlServer) (x : StorePool) (i k n : Nat) (hn : LeftWithin n (x.task i))
    (hne : x.turn S (i, k) ≠ x) :
    (∃ m, m < n ∧ LeftWithin m ((x.turn S (i, k)).task i)) ∧ ∀ i', i' ≠ i → (x.turn S (i, k)).task i' = x.task i' := by
  unfold StorePool.turn at hne ⊢
  dsimp only at hne ⊢
  split at hne
  next ids j rest hl =>
    rw [hl] at hn
    rw [LeftWithin, jobsModels_cons, List.length_cons] at hn
    split at hne
    next hk =>
      rw [if_pos hk]
      refine ⟨⟨n - 1, by omega, ?_⟩, fun i' hi' => if_neg hi'⟩
      dsimp only
      rw [if_pos rfl]
      exact ⟨_, job_within j, by omega⟩
    · exact (hne rfl).elim
  next ids k' j s f rest hl =>
    rw [hl] at hn
    obtain ⟨m, m1, m2⟩ := hn
    match m, m1 with
    | m + 1, m1 =>
      split
      · refine ⟨⟨0, by omega, ?_⟩, fun i' hi' => if_neg hi'⟩
        dsimp only
        rw [if_pos rfl]
        trivial
      · refine ⟨⟨n - 1, by omega, ?_⟩, fun i' hi' => if_neg hi'⟩
        dsimp only
        rw [if_pos rfl]
        exact ⟨m, m1 _, by omega⟩
  next ids k' j id rest hl =>
    rw [hl] at hn
    obtain ⟨m, m1, m2⟩ := hn
    refine ⟨⟨n - 1, by omega, ?_⟩, fun i' hi' => if_neg hi'⟩
    dsimp only
    rw [if_pos rfl, LeftWithin]
    omega
  · exact (hne rfl).elim

/-- the turn of one that has nothing to do changes nothing. -/
theorem turn_idle (S : SqlServer) (x : StorePool) (i k : Nat) (h : (x.outcome i).isSome = true) :
    x.turn S (i, k) = x := by
  unfold StorePool.outcome at h
  unfold StorePool.turn
  dsimp only
  match x.task i, h with
  | .error e, _ => rfl
  | .ok ⟨ids, none, []⟩, _ => rfl

open scoped BigOperators in
/-- Nor do they wait for each other for ever: a run in which every turn does something has at most this many turns… -/
theorem C110_bound (S : SqlServer) (jobs : Nat → List StoreJob) (tasks : Finset Nat)
    (ht : ∀ i, i ∉ tasks → jobs i = []) (rows : Tables) (sched : List (Nat × Nat))
    (hs : ∀ a t b, sched = a ++ t :: b →
      ((StorePool.started rows jobs).go S a).turn S t ≠ (StorePool.started rows jobs).go S a) :
    sched.length ≤ ∑ i ∈ tasks, (Spec.jobsModels (jobs i) + 2 * (jobs i).length) := by
  suffices h : ∃ m : Nat → Nat, (∀ i, LeftWithin (m i) (((StorePool.started rows jobs).go S sched).task i)) ∧
      (∀ i, i ∉ tasks → ((StorePool.started rows jobs).go S sched).task i = .ok ⟨[], none, []⟩) ∧
      sched.length + ∑ i ∈ tasks, m i ≤ ∑ i ∈ tasks, (Spec.jobsModels (jobs i) + 2 * (jobs i).length) by
    obtain ⟨m, -, -, h⟩ := h
    omega
  induction sched using List.reverseRecOn with
  | nil =>
    refine ⟨fun i => Spec.jobsModels (jobs i) + 2 * (jobs i).length, fun i => Nat.le_refl _, fun i hi => ?_, by simp⟩
    show Except.ok _ = _
    rw [ht i hi]
  | append_singleton sched t ih =>
    obtain ⟨m, h1, h2, h3⟩ := ih fun a t' b hab => hs a t' (b ++ [t]) (by rw [hab, List.append_assoc]; rfl)
    have hne := hs sched t [] rfl
    obtain ⟨i, k⟩ := t
    rw [StorePool.go, List.foldl_append, List.foldl_cons, List.foldl_nil]
    rw [← StorePool.go]
    generalize (StorePool.started rows jobs).go S sched = x at h1 h2 hne ⊢
    obtain ⟨⟨m', hm, hw⟩, ho⟩ := turn_less S x i k (m i) (h1 i) hne
    have hi : i ∈ tasks := by
      by_contra hi
      refine hne (turn_idle S x i k ?_)
      unfold StorePool.outcome
      rw [h2 i hi]
      rfl
    refine ⟨fun n => if n = i then m' else m n, fun n => ?_, fun n hn => ?_, ?_⟩
    · dsimp only
      by_cases hni : n = i
      · subst hni
        rw [if_pos rfl]
        exact hw
      · rw [if_neg hni, ho n hni]
        exact h1 n
    · have hni : n ≠ i := fun h => hn (h ▸ hi)
      rw [ho n hni]
      exact h2 n hn
    · have : ∑ n ∈ tasks, (if n = i then m' else m n) < ∑ n ∈ tasks, m n := by
        refine Finset.sum_lt_sum (fun n _ => ?_) ⟨i, hi, ?_⟩
        · split
          next h => subst h; omega
          · exact Nat.le_refl _
        · rw [if_pos rfl]
          exact hm
      rw [List.length_append, List.length_singleton]
      dsimp only
      omega

/-- … and as long as not all of them have ended, somebody can do something, if the pool has a connection at all: there is
one to take, or somebody who holds one can go on. -/
theorem C110_goes (S : SqlServer) (jobs : Nat → List StoreJob) (rows : Tables) (sched : List (Nat × Nat))
    (x : StorePool) (hx : x = (StorePool.started rows jobs).go S sched) (k : Nat) {i : Nat} (hi : x.outcome i = none) :
    ∃ i', x.outcome i' = none ∧ x.turn S (i', k) ≠ x := by
  have busy : ∀ i' ids k' j p rest, x.task i' = .ok ⟨ids, some (k', j, p), rest⟩ →
      x.outcome i' = none ∧ x.turn S (i', k) ≠ x := by
    intro i' ids k' j p rest hl
    refine ⟨by unfold StorePool.outcome; rw [hl], fun heq => ?_⟩
    unfold StorePool.turn at heq
    dsimp only at heq
    rw [hl] at heq
    match p with
    | .done id =>
      have := congrArg (fun y => y.served.length) heq
      simp at this
    | .stmt s f =>
      dsimp only at heq
      split at heq
      · have := congrArg (fun y => y.served.length) heq
        simp at this
      · have := congrArg (fun y => y.hist.length) heq
        simp at this
  match hk : x.held k with
  | some i' =>
    rw [hx] at hk
    obtain ⟨ids, j, p, rest, h⟩ := (holders S jobs rows sched k i').1 hk
    rw [← hx] at h
    exact ⟨i', busy i' _ _ _ _ _ h⟩
  | none =>
    match hl : x.task i with
    | .error e =>
      unfold StorePool.outcome at hi
      rw [hl] at hi
      cases hi
    | .ok ⟨ids, some (k', j, p), rest⟩ => exact ⟨i, busy i _ _ _ _ _ hl⟩
    | .ok ⟨ids, none, []⟩ =>
      unfold StorePool.outcome at hi
      rw [hl] at hi
      cases hi
    | .ok ⟨ids, none, j :: rest⟩ =>
      refine ⟨i, hi, fun heq => ?_⟩
      unfold StorePool.turn at heq
      dsimp only at heq
      rw [hl] at heq
      dsimp only at heq
      rw [if_pos hk] at heq
      have := congrArg (fun y => y.task i) heq
      dsimp only at this
      rw [if_pos rfl, hl] at this
      cases this

/-! ### an example -/

namespace C110

/-- the tasks of C107 with two connections: the third finds both held (its first turn) and takes that of the second
after that has given it back. -/
def sched : List (Nat × Nat) :=
  [(0, 0), (1, 1), (2, 0), (0, 0), (1, 0), (1, 0), (1, 0), (2, 1), (2, 0), (0, 0), (0, 0), (2, 0)]

def final : StorePool := (StorePool.started C66.empty.rows C107.jobs).go C66.server sched

/-- the connection 1 serves a pet of the second task and then the one of the third that is refused. -/
example : final.outcome 0 = some (.ok [32]) ∧ final.outcome 1 = some (.ok [31]) ∧
    final.outcome 2 = some (.error { code := 1114, state := "HY000".toList, msg := "full".toList }) ∧
    final.held 0 = none ∧ final.held 1 = none ∧
    (final.servedOn 1).map (fun s => (s.task, s.result)) =
      [(1, .ok 31), (2, .error { code := 1114, state := "HY000".toList, msg := "full".toList })] ∧
    (final.rows "pet".toList).map (fun r => [r "id".toList, r "name".toList, r "owner".toList]) =
      [[.int 4 true 31, .str [75], .int 8 true 62], [.int 4 true 32, .str [82], .int 8 true 61]] := by
  refine ⟨?_, ?_, ?_, ?_, ?_, ?_, ?_⟩ <;> decide +kernel

/-- the commands on the two connections; this server reuses the number 2 for statements. -/
def msgs : List (Nat × Bytes) :=
  [(0, 0x16 :: utf8 "insert into `person` (`name`) values (?)".toList),
   (0, [23, 1, 0, 0, 0, 0, 1, 0, 0, 0, 0, 1, 253, 0, 1, 65]),
   (1, 0x16 :: utf8 "insert into `person` (`name`) values (?)".toList),
   (1, [23, 1, 0, 0, 0, 0, 1, 0, 0, 0, 0, 1, 253, 0, 1, 66]),
   (1, 0x16 :: utf8 "insert into `pet` (`name`, `owner`) values (?, ?)".toList),
   (1, [23, 2, 0, 0, 0, 0, 1, 0, 0, 0, 0, 1, 253, 0, 8, 128, 1, 75, 62, 0, 0, 0, 0, 0, 0, 0]),
   (1, 0x16 :: utf8 "insert into `person` (`name`) values (?)".toList),
   (1, [23, 2, 0, 0, 0, 0, 1, 0, 0, 0, 0, 1, 253, 0, 1, 65]),
   (0, 0x16 :: utf8 "insert into `pet` (`name`, `owner`) values (?, ?)".toList),
   (0, [23, 2, 0, 0, 0, 0, 1, 0, 0, 0, 0, 1, 253, 0, 8, 128, 1, 82, 61, 0, 0, 0, 0, 0, 0, 0]),
   (1, 0x16 :: utf8 "insert into `pet` (`name`, `owner`) values (?, ?)".toList),
   (1, [23, 2, 0, 0, 0, 0, 1, 0, 0, 0, 0, 1, 253, 0, 8, 128, 1, 82, 63, 0, 0, 0, 0, 0, 0, 0])]

/-- the jobs served on the connections. -/
def jobsOn : Nat → List StoreJob
  | 0 => C107.jobs 0
  | _ => C107.jobs 1 ++ C107.jobs 2

/-- the jobs on their connections. -/
example : (C66.server.talkEach C66.empty.rows (fun _ => ⟨fun _ => none, fun _ _ => none⟩) msgs).map (fun x =>
      [0, 1].map fun k =>
        ((runEach (jobsOn k) (exConn (x.2.2 k))).1,
          decide ((runEach (jobsOn k) (exConn (x.2.2 k))).2.tx = Spec.commands (Spec.cmdsBy k msgs)),
          (runEach (jobsOn k) (exConn (x.2.2 k))).2.rx.length)) =
    some [([.ok 32], true, 0), ([.ok 31, .err (refusal C66.server
      { code := 1114, state := "HY000".toList, msg := "full".toList })], true, 0)] := by
  decide +kernel

/-- at most twelve turns can do something; here it is eleven, the first turn of the third task does nothing. -/
example : Spec.jobsModels (C107.jobs 0) + 2 * (C107.jobs 0).length + (Spec.jobsModels (C107.jobs 1) +
    2 * (C107.jobs 1).length) + (Spec.jobsModels (C107.jobs 2) + 2 * (C107.jobs 2).length) = 12 ∧
    ((StorePool.started C66.empty.rows C107.jobs).go C66.server [(0, 0), (1, 1)]).outcome 2 = none := by
  refine ⟨?_, ?_⟩ <;> decide +kernel

end C110

end Verif

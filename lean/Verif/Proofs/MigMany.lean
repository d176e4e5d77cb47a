import Verif.Spec.MigMany
import Verif.Proofs.MigTogether
import Verif.Props.C84_MigMove

/-! # Lemmas: several programs move one database to versions at the same time -/

namespace Verif

open Spec (MigServer MigStore SqlError Applied MigMover MigMove MovePhase MoveEvent MoveSystem execAll)

/-- the call of a program (src/migrator/migrator_inner.rs 70-72, 97-164); of `one_down` without the
answer whether there was one. -/
def moverCall (j : MigMover) : SM MigWire Error Unit :=
  match j.goal with
  | .up => (wired j.upSql j.downSql).up j.lists
  | .upTo v => (wired j.upSql j.downSql).upToVersion (some v) j.lists
  | .downTo v => (wired j.upSql j.downSql).downToVersion v j.lists
  | .goto v => (wired j.upSql j.downSql).toVersion v j.lists
  | .back => do
    let _ ← (wired j.upSql j.downSql).oneDown j.lists
    pure ()

/-- … on a connection, when this was read. -/
def callOn (j : MigMover) (a : Version → List Str) : M Unit := fun c =>
  ((moverCall j ⟨c, a⟩).1, (moverCall j ⟨c, a⟩).2.conn)

/-- `Migrator::new(…).await?` and the call. -/
def migrateTo (debug : Bool) (fp : FloatParse) (j : MigMover) : M Unit := do
  let a ← migratorOpen debug fp j.lists
  callOn j a

/-- the statement about the table. -/
def noteSql (m : MigMove) : Str := if m.1 then insertSql m.2 else deleteSql m.2

def moveStatements (j : MigMover) (ms : List MigMove) : List Str := ms.flatMap fun m => [j.sql m, noteSql m]

/-- what is left of a program. -/
def restOfMove {W : Type} (S : MigServer W) (fp : FloatParse) (j : MigMover) : MovePhase → M Unit
  | .ask => do
    ensureTable fp
    let a ← loadTable fp j.lists
    callOn j a
  | .create => do
    let _ ← executeQuery createSql
    let a ← loadTable fp j.lists
    callOn j a
  | .load => do
    let a ← loadTable fp j.lists
    callOn j a
  | .act m ms => execAll (moveStatements j (m :: ms))
  | .note m ms => execAll (noteSql m :: moveStatements j ms)
  | .done => pure ()
  | .failed e => SM.fail (migRefusal S e)
  | .crashed => SM.crash

/-- the statement of a program that has not ended. -/
def moveStmt (j : MigMover) : MovePhase → Str
  | .ask => existsSql
  | .create => createSql
  | .load => selectSql
  | .act m _ => j.sql m
  | .note m _ => noteSql m
  | _ => []

variable {W : Type} (S : MigServer W)

/-- What a program is given: versions in order, no name twice in one; the statements are not about
`migrations`; names without quotes. -/
structure FairMover (j : MigMover) : Prop where
  proper : Proper j.lists
  foreignUp : ∀ k ∈ Spec.declared j.lists, Foreign (j.upSql k)
  foreignDown : ∀ k ∈ Spec.declared j.lists, Foreign (j.downSql k)
  plain : ∀ k ∈ Spec.declared j.lists, Plain k

/-- a move of the program, towards its goal. -/
def Aim (j : MigMover) (m : MigMove) : Prop :=
  m.2 ∈ Spec.declared j.lists ∧ (m.1 = true → j.goal.applies m.2 = true) ∧ (m.1 = false → j.goal.reverts m.2 = true)

/-- the moves ahead are those of the program. -/
def MoveOk (j : MigMover) : MovePhase → Prop
  | .act m ms => ∀ i ∈ m :: ms, Aim j i
  | .note m ms => ∀ i ∈ m :: ms, Aim j i
  | _ => True

theorem FairMover.foreign {j : MigMover} (h : FairMover j) {m : MigMove} (hm : m.2 ∈ Spec.declared j.lists) :
    Foreign (j.sql m) := by
  unfold Spec.MigMover.sql
  split
  · exact h.foreignUp _ hm
  · exact h.foreignDown _ hm

theorem migrateTo_eq (debug : Bool) (fp : FloatParse) (j : MigMover) (hm : Proper j.lists) :
    migrateTo debug fp j = restOfMove S fp j .ask := by
  have ho : ordered j.lists = true := by
    rw [C48_ordered]
    simp only [before_rank]
    exact hm.ordered
  have hdbg : (debug && !ordered j.lists) = false := by rw [ho]; simp
  unfold migrateTo migratorOpen restOfMove
  rw [hdbg, if_neg (by simp), sm_assoc]

theorem most_sublist (g : Spec.MigGoal) (ks : List MigKey) : (g.most ks).Sublist ks := by
  cases g
  case back => exact List.take_sublist 1 ks
  all_goals exact List.Sublist.refl _

theorem of_mem_plan {j : MigMover} {rows : List MigKey} {m : MigMove} (h : m ∈ j.plan rows) :
    m.2 ∈ Spec.declared j.lists ∧
      (m.1 = true ∧ j.goal.applies m.2 = true ∧ m.2 ∉ rows ∨ m.1 = false ∧ j.goal.reverts m.2 = true ∧ m.2 ∈ rows) := by
  obtain ⟨b, k⟩ := m
  unfold Spec.MigMover.plan at h
  simp only [List.mem_append, List.mem_map, Prod.mk.injEq] at h
  rcases h with (⟨a, h1, rfl, rfl⟩ | ⟨a, h1, rfl, rfl⟩)
  · simp only [List.mem_filter, Bool.and_eq_true, decide_eq_true_iff] at h1
    exact ⟨h1.1, .inl ⟨rfl, h1.2⟩⟩
  · have h1 := (most_sublist _ _).mem h1
    simp only [List.mem_reverse, List.mem_filter, Bool.and_eq_true, decide_eq_true_iff] at h1
    exact ⟨h1.1, .inr ⟨rfl, h1.2⟩⟩

theorem mem_plan_up {j : MigMover} {rows : List MigKey} {k : MigKey} (h1 : k ∈ Spec.declared j.lists)
    (h2 : j.goal.applies k = true) (h3 : k ∉ rows) : (true, k) ∈ j.plan rows := by
  unfold Spec.MigMover.plan
  refine List.mem_append_left _ (List.mem_map.2 ⟨k, List.mem_filter.2 ⟨h1, ?_⟩, rfl⟩)
  simp [h2, h3]

theorem mem_plan_down {j : MigMover} {rows : List MigKey} {k : MigKey} (h1 : k ∈ Spec.declared j.lists)
    (h2 : j.goal.clears k = true) (h3 : k ∈ rows) : (false, k) ∈ j.plan rows := by
  have h4 : j.goal.reverts k = true ∧ ∀ ks, j.goal.most ks = ks := by
    revert h2
    cases j.goal
    case back => intro h; cases h
    all_goals exact fun h => ⟨h, fun _ => rfl⟩
  unfold Spec.MigMover.plan
  rw [h4.2]
  refine List.mem_append_right _ (List.mem_map.2 ⟨k, List.mem_reverse.2 (List.mem_filter.2 ⟨h1, ?_⟩), rfl⟩)
  simp [h4.1, h3]

theorem plan_aim {j : MigMover} {rows : List MigKey} {m : MigMove} (h : m ∈ j.plan rows) : Aim j m := by
  obtain ⟨h1, ⟨h2, h3, -⟩ | ⟨h2, h3, -⟩⟩ := of_mem_plan h
  · exact ⟨h1, fun _ => h3, fun h => by rw [h2] at h; cases h⟩
  · exact ⟨h1, fun h => (by rw [h2] at h; cases h), fun _ => h3⟩

theorem goal_not_both (g : Spec.MigGoal) (k : MigKey) (h1 : g.applies k = true) (h2 : g.reverts k = true) : False := by
  cases g with
  | up => cases h2
  | upTo v => cases h2
  | downTo v => cases h1
  | goto v =>
    simp only [Spec.MigGoal.applies, Spec.MigGoal.reverts, decide_eq_true_iff] at h1 h2
    omega
  | back => cases h1

/-- no migration is moved twice. -/
theorem plan_nodup {j : MigMover} (hp : Proper j.lists) (rows : List MigKey) : ((j.plan rows).map (·.2)).Nodup := by
  unfold Spec.MigMover.plan
  rw [List.map_append, List.map_map, List.map_map]
  have e1 : ((·.2) ∘ fun k : MigKey => ((true, k) : MigMove)) = id := rfl
  have e2 : ((·.2) ∘ fun k : MigKey => ((false, k) : MigMove)) = id := rfl
  rw [e1, e2, List.map_id, List.map_id, List.nodup_append]
  refine ⟨hp.nodup.filter _, (List.nodup_reverse.2 (hp.nodup.filter _)).sublist (most_sublist _ _), fun a ha b hb hab => ?_⟩
  subst hab
  have hb := List.mem_reverse.1 ((most_sublist _ _).mem hb)
  have h1 := (List.mem_filter.1 ha).2
  have h2 := (List.mem_filter.1 hb).2
  rw [Bool.and_eq_true] at h1 h2
  exact goal_not_both _ _ h1.1 h2.1

theorem plan_length (j : MigMover) (rows : List MigKey) : (j.plan rows).length ≤ (Spec.declared j.lists).length := by
  unfold Spec.MigMover.plan
  rw [List.length_append, List.length_map, List.length_map]
  refine Nat.le_trans (Nat.add_le_add_left (most_sublist _ _).length_le _) ?_
  rw [List.length_reverse]
  generalize Spec.declared j.lists = ks
  induction ks with
  | nil => simp
  | cons k ks ih =>
    rw [List.filter_cons, List.filter_cons, List.length_cons]
    split
    · rename_i h1
      rw [Bool.and_eq_true] at h1
      rw [if_neg (fun h2 => by rw [Bool.and_eq_true] at h2; exact goal_not_both _ _ h1.1 h2.1), List.length_cons]
      omega
    · split
      · rw [List.length_cons]
        omega
      · omega

theorem moveStatements_ups (j : MigMover) (ks : List MigKey) :
    moveStatements j (ks.map fun k => (true, k)) = Spec.upStatements j.upSql ks := by
  unfold moveStatements Spec.upStatements
  rw [List.flatMap_map]
  rfl

theorem moveStatements_downs (j : MigMover) (ks : List MigKey) :
    moveStatements j (ks.map fun k => (false, k)) = Spec.downStatements j.downSql ks := by
  unfold moveStatements Spec.downStatements
  rw [List.flatMap_map]
  rfl

theorem moveStatements_append (j : MigMover) (a b : List MigMove) :
    moveStatements j (a ++ b) = moveStatements j a ++ moveStatements j b := List.flatMap_append

/-- the call, when the view is the table. -/
theorem callOn_plan (j : MigMover) (hm : Proper j.lists) (rows : List MigKey) (a : Version → List Str)
    (ha : ∀ k, Applied a k ↔ k ∈ rows) (ht : Tidy a) : callOn j a = execAll (moveStatements j (j.plan rows)) := by
  funext c
  unfold callOn moverCall Spec.MigMover.plan
  rw [moveStatements_append, moveStatements_ups, moveStatements_downs]
  have hup : ∀ t, Spec.pendingUp t j.lists a =
      (Spec.declared j.lists).filter fun k => Spec.upTo t k && decide (k ∉ rows) := by
    intro t
    unfold Spec.pendingUp
    refine List.filter_congr fun k _ => ?_
    simp only [ha, decide_not]
  have hdown : ∀ t, Spec.pendingDown t j.lists a =
      ((Spec.declared j.lists).filter fun k => decide (Spec.rank t < Spec.rank k.1) && decide (k ∈ rows)).reverse := by
    intro t
    unfold Spec.pendingDown
    congr 1
    refine List.filter_congr fun k _ => ?_
    simp only [ha]
  have hnone : ∀ ks : List MigKey, ks.filter (fun k => false && decide (k ∈ rows)) = [] := by
    intro ks; simp
  have hnone' : ∀ ks : List MigKey, ks.filter (fun k => false && decide (k ∉ rows)) = [] := by
    intro ks; simp
  cases j.goal with
  | up =>
    have := (C68_up j.upSql j.downSql j.lists hm none ⟨c, a⟩).1
    dsimp only [Spec.MigGoal.applies, Spec.MigGoal.reverts, Spec.MigGoal.most] at this ⊢
    rw [hup] at this
    rw [hnone]
    simp only [List.reverse_nil, Spec.downStatements, List.flatMap_nil, List.append_nil]
    exact this
  | upTo v =>
    have := (C68_up j.upSql j.downSql j.lists hm (some v) ⟨c, a⟩).1
    dsimp only [Spec.MigGoal.applies, Spec.MigGoal.reverts, Spec.MigGoal.most] at this ⊢
    rw [hup] at this
    rw [hnone]
    simp only [List.reverse_nil, Spec.downStatements, List.flatMap_nil, List.append_nil]
    exact this
  | downTo v =>
    have := (C68_down j.upSql j.downSql j.lists hm v ⟨c, a⟩ ht).1
    dsimp only [Spec.MigGoal.applies, Spec.MigGoal.reverts, Spec.MigGoal.most] at this ⊢
    rw [hdown] at this
    rw [hnone']
    simp only [Spec.upStatements, List.flatMap_nil, List.nil_append]
    exact this
  | goto v =>
    have := C68_to_version j.upSql j.downSql j.lists hm v ⟨c, a⟩ ht
    dsimp only [Spec.MigGoal.applies, Spec.MigGoal.reverts, Spec.MigGoal.most] at this ⊢
    rw [hup, hdown] at this
    exact this
  | back =>
    have := C68_one_down j.upSql j.downSql j.lists ⟨c, a⟩
    dsimp only [Spec.MigGoal.applies, Spec.MigGoal.reverts, Spec.MigGoal.most] at this ⊢
    rw [hnone']
    simp only [ha] at this
    simp only [Bool.true_and, Spec.upStatements, List.flatMap_nil, List.nil_append]
    rw [SM.bind_apply]
    generalize (wired j.upSql j.downSql).oneDown j.lists ⟨c, a⟩ = w at this ⊢
    match hl : ((Spec.declared j.lists).filter fun k => decide (k ∈ rows)).getLast? with
    | none =>
      rw [hl] at this
      rw [List.getLast?_eq_none_iff.1 hl, this]
      rfl
    | some k =>
      rw [hl] at this
      obtain ⟨l, hl⟩ := List.getLast?_eq_some_iff.1 hl
      rw [hl, List.reverse_append]
      refine Eq.trans ?_ this.1
      obtain ⟨_ | _ | _, w⟩ := w <;> rfl

theorem restOfMove_todo (fp : FloatParse) (j : MigMover) (ms : List MigMove) :
    restOfMove S fp j (.todo ms) = execAll (moveStatements j ms) := by
  cases ms <;> rfl

theorem moveOk_todo {j : MigMover} {ms : List MigMove} (h : ∀ i ∈ ms, Aim j i) :
    MoveOk j (.todo ms) := by
  cases ms with
  | nil => trivial
  | cons => exact h

theorem todo_crashed (ms : List MigMove) : MovePhase.todo ms ≠ .crashed := by
  cases ms <;> exact fun h => by cases h

attribute [local irreducible] existsSql createSql selectSql

/-- one statement of a program, on its connection. -/
def MovesTo (fp : FloatParse) (j : MigMover) (st : MigStore W) (p : MovePhase) (sql : Str) : Prop :=
  ∃ ps, S.react st (cmdOf sql) = some ((S.moveOn j st p).1, ps) ∧
    ∀ (c : Conn) (r : List Rx), MigRest S c (rxOf (sentFor (cmdOf sql) ps) ++ r) →
      ((S.moveOn j st p).2.1 = .crashed → (restOfMove S fp j p c).1 = .panic) ∧
      ((S.moveOn j st p).2.1 ≠ .crashed → ∃ q, restOfMove S fp j p c = restOfMove S fp j (S.moveOn j st p).2.1 { c with
          rx := r
          tx := c.tx ++ Spec.commands [cmdOf sql]
          seqId := q })

variable {S}

theorem move_ask (hS : FairMig S) (fp : FloatParse) (j : MigMover) (st : MigStore W) :
    MovesTo S fp j st .ask existsSql := by
  unfold MovesTo
  refine ⟨_, react_exists S st, fun c r hc => ?_⟩
  obtain ⟨q, h⟩ := ensureTable_ask S hS fp st c r hc
  constructor
  · intro hcr
    simp only [Spec.MigServer.moveOn] at hcr
    split at hcr <;> cases hcr
  · intro _
    refine ⟨q, ?_⟩
    simp only [Spec.MigServer.moveOn]
    simp only [restOfMove]
    rw [SM.bind_apply, h]
    cases hsome : st.table.isSome with
    | true => rfl
    | false =>
      simp only [Bool.false_eq_true, if_false]
      rw [← SM.bind_apply, sm_assoc]
      rfl

theorem move_create (hS : FairMig S) (fp : FloatParse) (j : MigMover) (st : MigStore W) :
    MovesTo S fp j st .create createSql := by
  unfold MovesTo
  obtain ⟨ps, h1, h2⟩ := exec_then S hS st createSql isExec_create (do
    let a ← loadTable fp j.lists
    callOn j a)
  rw [execute_creates reads_create] at h1 h2
  refine ⟨ps, ?_, fun c r hc => ?_⟩
  · rw [h1, Spec.MigServer.moveOn]
    cases st.table <;> rfl
  · obtain ⟨q, h⟩ := h2 c r hc
    rw [Spec.MigServer.moveOn]
    cases htab : st.table with
    | none =>
      rw [htab] at h
      exact ⟨fun h => by (cases h), fun _ => ⟨q, h⟩⟩
    | some rows =>
      rw [htab] at h
      exact ⟨fun h => by (cases h), fun _ => ⟨q, h⟩⟩

/-- the table is one the unique index admits, and names fit. -/
def SoundStore (S : MigServer W) (st : MigStore W) : Prop := S.Sound (st.table.getD [])

theorem clash_self (hc : Collates S) (k : MigKey) : S.clash k k = true := by
  unfold Spec.MigServer.clash
  rw [hc.refl]
  simp

theorem clash_comm (hc : Collates S) (j k : MigKey) : S.clash j k = S.clash k j := by
  unfold Spec.MigServer.clash
  rw [hc.symm]
  congr 1
  exact decide_eq_decide.2 ⟨Eq.symm, Eq.symm⟩

theorem sound_nodup (hc : Collates S) {rows : List MigKey} (h : S.Sound rows) : rows.Nodup := by
  refine h.1.imp ?_
  intro a b hab e
  rw [e, clash_self hc] at hab
  cases hab

theorem move_load (hS : FairMig S) (hcl : Collates S) (fp : FloatParse) (j : MigMover) (hj : FairMover j)
    (st : MigStore W) (hk : SoundStore S st) : MovesTo S fp j st .load selectSql := by
  unfold MovesTo
  obtain ⟨t, w⟩ := st
  cases t with
  | none =>
    have hreact : S.react ⟨none, w⟩ (cmdOf selectSql) = some (⟨none, w⟩, [S.errAnswer S.noTable]) := by
      unfold cmdOf
      rw [Spec.MigServer.react, fromUtf8_utf8]
      simp only [Option.bind_eq_bind, Option.bind_some]
      rw [reads_select]
    refine ⟨_, hreact, fun c r hc => ⟨fun h => by (cases h), fun _ => ?_⟩⟩
    have hrx := hc.rx
    unfold sentFor at hrx
    rw [framesAll_one] at hrx
    obtain ⟨e1, e2⟩ := hS.errors _ Spec.MigServer.Emits.noTable
    have ha : errAnswer c S.noTable.code S.noTable.state S.noTable.msg = S.errAnswer S.noTable := by
      unfold errAnswer Spec.MigServer.errAnswer stateOf
      rw [hc.p41]
    obtain ⟨q, h1⟩ := C14_query c r S.noTable.code S.noTable.state S.noTable.msg selectSql hc.pending
      hc.faults e1 (.inl e2) (by rw [ha]; exact hrx)
    refine ⟨q, ?_⟩
    simp only [restOfMove]
    have hl := SM.bind_of_err (f := fun rs => SM.get >>= fun c : Conn =>
      loadLoop fp j.lists (c.rx.length + 2) rs fun _ => []) h1
    have hl' : loadTable fp j.lists c = _ := hl
    rw [SM.bind_of_err hl']
    simp only [errSeen, stateOf, hc.p41]
    have hcm : Spec.commands [cmdOf selectSql] = Spec.frames 0 (0x03 :: utf8 selectSql) := by
      simp [Spec.commands, cmdOf]
    rw [hcm]
    rfl
  | some rows =>
    have hk' : S.Sound rows := hk
    obtain ⟨sent, h1, h2⟩ := loadTable_talk S hS fp j.lists w rows hk'.2
    obtain ⟨ps, h3, rfl⟩ := mtalk_one_inv S h1
    obtain ⟨m1, m2⟩ := C47_new j.lists hj.proper (S.order rows)
    have hperm := hS.order rows
    refine ⟨ps, h3, fun c r hc => ?_⟩
    obtain ⟨g1, g2⟩ := h2 c r hc
    have hrest : restOfMove S fp j .load = (do
      let a ← loadTable fp j.lists
      callOn j a) := rfl
    rw [hrest]
    simp only [Spec.MigServer.moveOn]
    by_cases hall : (rows.all fun k => decide (k ∈ Spec.declared j.lists)) = true
    · rw [if_pos hall]
      refine ⟨fun h => absurd h (todo_crashed _), fun _ => ?_⟩
      match hn : migratorNew j.lists (S.order rows) with
      | none =>
        exfalso
        obtain ⟨k, hk1, hk2⟩ := m2.1 hn
        rw [List.all_eq_true] at hall
        exact hk2 (of_decide_eq_true (hall k (hperm.mem_iff.1 hk1)))
      | some a =>
        obtain ⟨q, g3⟩ := g1 a hn
        refine ⟨q, ?_⟩
        have ht : Tidy a := tidy_load j.lists (S.order rows) (fun _ => []) a (fun _ => List.nodup_nil)
          (hperm.nodup_iff.2 (sound_nodup hcl hk')) (fun k _ h => by cases h) hn
        rw [SM.bind_of_ok g3, restOfMove_todo,
          callOn_plan j hj.proper rows a (fun k => (m1 a hn k).trans hperm.mem_iff) ht]
    · rw [if_neg hall]
      refine ⟨fun _ => ?_, fun h => absurd rfl h⟩
      have hn : migratorNew j.lists (S.order rows) = none := by
        rw [List.all_eq_true] at hall
        push Not at hall
        obtain ⟨k, hk1, hk2⟩ := hall
        exact m2.2 ⟨k, hperm.mem_iff.2 hk1, by simpa using hk2⟩
      have := g2 hn
      match hl : loadTable fp j.lists c with
      | (.panic, c1) => rw [SM.bind_of_panic hl]
      | (.ok _, c1) => rw [hl] at this; cases this
      | (.err _, c1) => rw [hl] at this; cases this

theorem move_act (hS : FairMig S) (fp : FloatParse) (j : MigMover) (hj : FairMover j) (st : MigStore W) (m : MigMove)
    (ms : List MigMove) (hp : ∀ i ∈ m :: ms, Aim j i) :
    MovesTo S fp j st (.act m ms) (j.sql m) := by
  unfold MovesTo
  have hf := hj.foreign (hp m (List.mem_cons_self ..)).1
  obtain ⟨ps, h1, h2⟩ := exec_then S hS st (j.sql m) (isExec_foreign hf) (execAll (noteSql m :: moveStatements j ms))
  rw [execute_foreign S hf] at h1 h2
  refine ⟨ps, ?_, fun c r hc => ?_⟩
  · rw [h1, Spec.MigServer.moveOn]
    cases S.foreign st.world (j.sql m) <;> rfl
  · obtain ⟨q, h⟩ := h2 c r hc
    rw [Spec.MigServer.moveOn]
    cases htab : S.foreign st.world (j.sql m) with
    | ok w =>
      rw [htab] at h
      exact ⟨fun h => by (cases h), fun _ => ⟨q, h⟩⟩
    | error e =>
      rw [htab] at h
      exact ⟨fun h => by (cases h), fun _ => ⟨q, h⟩⟩

theorem move_note (hS : FairMig S) (fp : FloatParse) (j : MigMover) (hj : FairMover j) (st : MigStore W) (m : MigMove)
    (ms : List MigMove) (hp : ∀ i ∈ m :: ms, Aim j i) :
    MovesTo S fp j st (.note m ms) (noteSql m) := by
  unfold MovesTo
  obtain ⟨b, k⟩ := m
  have hf := hj.plain k (hp (b, k) (List.mem_cons_self ..)).1
  obtain ⟨t, w⟩ := st
  cases b with
  | true =>
    have e : noteSql (true, k) = insertSql k := rfl
    rw [e]
    obtain ⟨ps, h1, h2⟩ := exec_then S hS ⟨t, w⟩ (insertSql k) (isExec_insert hf) (execAll (moveStatements j ms))
    cases t with
    | none =>
      have hx : S.execute ⟨none, w⟩ (insertSql k) = .error S.noTable := by
        unfold Spec.MigServer.execute
        rw [reads_insert hf]
      rw [hx] at h1 h2
      refine ⟨ps, h1, fun c r hc => ⟨fun h => by (cases h), fun _ => h2 c r hc⟩⟩
    | some rows =>
      rw [execute_insert S hf] at h1 h2
      refine ⟨ps, ?_, fun c r hc => ?_⟩
      · rw [h1, Spec.MigServer.moveOn]
        dsimp only
        cases S.inserted w rows k.1.major.toNat k.1.minor.toNat k.1.patch.toNat k.2 <;> rfl
      · obtain ⟨q, h⟩ := h2 c r hc
        rw [Spec.MigServer.moveOn]
        dsimp only
        cases htab : S.inserted w rows k.1.major.toNat k.1.minor.toNat k.1.patch.toNat k.2 with
        | ok rows' =>
          rw [htab] at h
          refine ⟨fun h => absurd h (todo_crashed _), fun _ => ⟨q, ?_⟩⟩
          dsimp only
          rw [restOfMove_todo]
          exact h
        | error e =>
          rw [htab] at h
          exact ⟨fun h => by (cases h), fun _ => ⟨q, h⟩⟩
  | false =>
    have e : noteSql (false, k) = deleteSql k := rfl
    rw [e]
    obtain ⟨ps, h1, h2⟩ := exec_then S hS ⟨t, w⟩ (deleteSql k) (isExec_delete hf) (execAll (moveStatements j ms))
    cases t with
    | none =>
      have hx : S.execute ⟨none, w⟩ (deleteSql k) = .error S.noTable := by
        unfold Spec.MigServer.execute
        rw [reads_delete hf]
      rw [hx] at h1 h2
      refine ⟨ps, h1, fun c r hc => ⟨fun h => by (cases h), fun _ => h2 c r hc⟩⟩
    | some rows =>
      rw [execute_delete S hf] at h1 h2
      refine ⟨ps, h1, fun c r hc => ?_⟩
      obtain ⟨q, h⟩ := h2 c r hc
      rw [Spec.MigServer.moveOn]
      refine ⟨fun h => absurd h (todo_crashed _), fun _ => ⟨q, ?_⟩⟩
      dsimp only
      rw [restOfMove_todo]
      exact h

theorem move_step (hS : FairMig S) (hc : Collates S) (fp : FloatParse) (j : MigMover) (hj : FairMover j) (st : MigStore W)
    (p : MovePhase) (hp : MoveOk j p) (hk : SoundStore S st) (he : p.ended = false) :
    MovesTo S fp j st p (moveStmt j p) := by
  cases p with
  | ask => exact move_ask hS fp j st
  | create => exact move_create hS fp j st
  | load => exact move_load hS hc fp j hj st hk
  | act m ms => exact move_act hS fp j hj st m ms hp
  | note m ms => exact move_note hS fp j hj st m ms hp
  | done => cases he
  | failed e => cases he
  | crashed => cases he

variable (S)

theorem moveOn_ended (j : MigMover) (st : MigStore W) (p : MovePhase) (he : p.ended = true) :
    S.moveOn j st p = (st, p, []) := by
  cases p <;> first | rfl | cases he

/-- what a turn can be. -/
inductive Turned (j : MigMover) (st : MigStore W) : MovePhase → MigStore W × MovePhase × List MoveEvent → Prop
  /-- nothing happens to the rows. -/
  | quiet {p p' t} : t.getD [] = st.table.getD [] → p'.underway = false → (p' = .done → p = .done) →
      (p' = .crashed → p = .crashed) →
      (p.underway = true → ∃ e, p' = .failed e) → Turned j st p (⟨t, st.world⟩, p', [])
  | read {rows} : st.table = some rows → (∀ k ∈ rows, k ∈ Spec.declared j.lists) →
      Turned j st .load (st, .todo (j.plan rows), [.read rows])
  | unknown {rows} : st.table = some rows → (∃ k ∈ rows, k ∉ Spec.declared j.lists) →
      Turned j st .load (st, .crashed, [.read rows])
  | took {m ms w} : S.foreign st.world (j.sql m) = .ok w → Turned j st (.act m ms) (⟨st.table, w⟩, .note m ms, [.took m])
  | recorded {k ms rows rows'} : st.table = some rows →
      S.inserted st.world rows k.1.major.toNat k.1.minor.toNat k.1.patch.toNat k.2 = .ok rows' →
      Turned j st (.note (true, k) ms) (⟨some rows', st.world⟩, .todo ms, [.noted (true, k)])
  | removed {k ms rows} : st.table = some rows →
      Turned j st (.note (false, k) ms)
        (⟨some (rows.filter fun j => !S.clash j k), st.world⟩, .todo ms, [.noted (false, k)])

theorem turned (j : MigMover) (st : MigStore W) (p : MovePhase) : Turned S j st p (S.moveOn j st p) := by
  obtain ⟨t, w⟩ := st
  cases p with
  | ask =>
    refine .quiet rfl ?_ ?_ ?_ (fun h => by cases h) <;> cases t <;> first | rfl | exact fun h => by cases h
  | create =>
    cases t with
    | none => exact .quiet rfl rfl (fun h => by cases h) (fun h => by cases h) (fun h => by cases h)
    | some rows => exact .quiet rfl rfl (fun h => by cases h) (fun h => by cases h) (fun h => by cases h)
  | load =>
    cases t with
    | none => exact .quiet rfl rfl (fun h => by cases h) (fun h => by cases h) (fun h => by cases h)
    | some rows =>
      simp only [Spec.MigServer.moveOn]
      split
      · rename_i hall
        rw [List.all_eq_true] at hall
        exact .read rfl fun k hk => of_decide_eq_true (hall k hk)
      · rename_i hall
        rw [List.all_eq_true] at hall
        push Not at hall
        obtain ⟨k, hk1, hk2⟩ := hall
        exact .unknown rfl ⟨k, hk1, by simpa using hk2⟩
  | act m ms =>
    rw [Spec.MigServer.moveOn]
    cases h : S.foreign w (j.sql m) with
    | error e => exact .quiet rfl rfl (fun h => by cases h) (fun h => by cases h) (fun _ => ⟨_, rfl⟩)
    | ok w' => exact .took h
  | note m ms =>
    obtain ⟨b, k⟩ := m
    cases b with
    | true =>
      rw [Spec.MigServer.moveOn]
      cases t with
      | none => exact .quiet rfl rfl (fun h => by cases h) (fun h => by cases h) (fun _ => ⟨_, rfl⟩)
      | some rows =>
        dsimp only
        cases h : S.inserted w rows k.1.major.toNat k.1.minor.toNat k.1.patch.toNat k.2 with
        | error e => exact .quiet rfl rfl (fun h => by cases h) (fun h => by cases h) (fun _ => ⟨_, rfl⟩)
        | ok rows' => exact .recorded rfl h
    | false =>
      rw [Spec.MigServer.moveOn]
      cases t with
      | none => exact .quiet rfl rfl (fun h => by cases h) (fun h => by cases h) (fun _ => ⟨_, rfl⟩)
      | some rows => exact .removed rfl
  | done => exact .quiet rfl rfl (fun _ => rfl) (fun h => h) (fun h => by cases h)
  | failed e => exact .quiet rfl rfl (fun h => by cases h) (fun h => by cases h) (fun h => by cases h)
  | crashed => exact .quiet rfl rfl (fun h => by cases h) (fun h => h) (fun h => by cases h)

theorem sound_filter {rows : List MigKey} (h : S.Sound rows) (p : MigKey → Bool) : S.Sound (rows.filter p) :=
  ⟨h.1.filter p, fun k hk => h.2 k (List.mem_filter.1 hk).1⟩

theorem sound_inserted (hc : Collates S) {w : W} {rows rows' : List MigKey} {k : MigKey} (h : S.Sound rows)
    (hi : S.inserted w rows k.1.major.toNat k.1.minor.toNat k.1.patch.toNat k.2 = .ok rows') : S.Sound rows' := by
  obtain ⟨n, h1, rfl, h3⟩ := inserted_ok S hi
  refine ⟨?_, fun i hi => ?_⟩
  · rw [List.pairwise_append]
    refine ⟨h.1, List.pairwise_singleton _ _, fun a ha b hb => ?_⟩
    rw [List.mem_singleton] at hb
    rw [hb]
    exact h3 a ha
  · rcases List.mem_append.1 hi with hi | hi
    · exact h.2 i hi
    · rw [List.mem_singleton] at hi
      subst hi
      rcases h1 with ⟨h1, rfl⟩ | ⟨-, h1⟩
      · exact h1
      · exact hc.cut _ _ h1

theorem moveOn_ok (hc : Collates S) (j : MigMover) (st : MigStore W) (p : MovePhase) (hp : MoveOk j p)
    (hk : SoundStore S st) : MoveOk j (S.moveOn j st p).2.1 ∧ SoundStore S (S.moveOn j st p).1 := by
  have ht := turned S j st p
  unfold SoundStore at *
  generalize S.moveOn j st p = y at ht
  cases ht with
  | @quiet _ p' t h1 h2 h3 h4 h5 =>
    refine ⟨?_, by dsimp only; rw [h1]; exact hk⟩
    cases p' <;> trivial
  | @read rows h1 h2 => exact ⟨moveOk_todo fun i hi => plan_aim hi, hk⟩
  | unknown h1 h2 => exact ⟨trivial, hk⟩
  | took h => exact ⟨hp, hk⟩
  | recorded h1 h2 =>
    refine ⟨moveOk_todo fun i hi => hp i (List.mem_cons_of_mem _ hi), ?_⟩
    rw [h1] at hk
    exact sound_inserted S hc hk h2
  | removed h1 =>
    refine ⟨moveOk_todo fun i hi => hp i (List.mem_cons_of_mem _ hi), ?_⟩
    rw [h1] at hk
    exact sound_filter S hk _

/-! ### the whole -/

open Spec.MoveSystem (turn run started rows)

variable (jobs : Nat → MigMover)

theorem move_nil (x : MoveSystem W) : run S jobs x [] = x := rfl
theorem move_cons (x : MoveSystem W) (i : Nat) (is : List Nat) : run S jobs x (i :: is) = run S jobs (turn S jobs x i) is := rfl

/-- something that holds at the start and is kept by every turn holds always. -/
theorem move_always {P : MoveSystem W → Prop} {x : MoveSystem W} (h0 : P x)
    (hstep : ∀ y i, P y → P (turn S jobs y i)) (is : List Nat) : P (run S jobs x is) := by
  induction is generalizing x with
  | nil => exact h0
  | cons i is ih => exact ih (hstep x i h0)

theorem move_stays (x : MoveSystem W) (n : Nat) (h : (x.phase n).ended = true) (is : List Nat) :
    (run S jobs x is).phase n = x.phase n := by
  refine move_always S jobs (P := fun y => y.phase n = x.phase n) rfl (fun y i hy => ?_) is
  simp only [turn]
  split
  · rename_i e
    subst e
    rw [hy, moveOn_ended S _ _ _ h]
  · exact hy

/-- what is kept. -/
structure MovesOk (x : MoveSystem W) : Prop where
  store : SoundStore S x.store
  phase : ∀ i, MoveOk (jobs i) (x.phase i)

theorem MovesOk.turn {S : MigServer W} {jobs : Nat → MigMover} (hc : Collates S) {x : MoveSystem W} (h : MovesOk S jobs x)
    (i : Nat) : MovesOk S jobs (turn S jobs x i) := by
  obtain ⟨h1, h2⟩ := moveOn_ok S hc (jobs i) x.store (x.phase i) (h.phase i) h.store
  refine ⟨h2, fun n => ?_⟩
  simp only [Spec.MoveSystem.turn]
  split
  · rename_i e
    subst e
    exact h1
  · exact h.phase n

/-- the programs on their connections, from any point on. -/
theorem move_talk (hS : FairMig S) (hc : Collates S) (fp : FloatParse) (hj : ∀ i, FairMover (jobs i))
    (schedule : List Nat) (x : MoveSystem W) (hx : MovesOk S jobs x) :
    ∃ cmds sent, S.talkEach x.store cmds = some ((run S jobs x schedule).store, sent) ∧
      ∀ i (c : Conn) (r : List Rx), MigRest S c (rxOf (sent i) ++ r) →
        ((run S jobs x schedule).phase i = .crashed → (restOfMove S fp (jobs i) (x.phase i) c).1 = .panic) ∧
        ((run S jobs x schedule).phase i ≠ .crashed → ∃ q, restOfMove S fp (jobs i) (x.phase i) c =
          restOfMove S fp (jobs i) ((run S jobs x schedule).phase i) { c with
            rx := r
            tx := c.tx ++ Spec.commands (Spec.commandsOf i cmds)
            seqId := q }) := by
  induction schedule generalizing x with
  | nil =>
    refine ⟨[], fun _ => [], rfl, fun i c r hrest => ⟨fun h => ?_, fun h => ⟨c.seqId, ?_⟩⟩⟩
    · rw [move_nil] at h
      rw [h]
      rfl
    · rw [move_nil]
      have := hrest.rx
      have e : c = { c with
          rx := r
          tx := c.tx ++ Spec.commands (Spec.commandsOf i [])
          seqId := c.seqId } := by
        cases c
        simp only [Spec.commandsOf, Spec.commands, List.filterMap_nil, List.flatMap_nil, List.append_nil]
        simp only at this
        rw [this]
        rfl
      rw [← e]
  | cons n is ih =>
    obtain ⟨cmds, sent, h1, h2⟩ := ih (turn S jobs x n) (hx.turn hc n)
    rw [← move_cons] at h1 h2
    have hph : ∀ i, (turn S jobs x n).phase i =
        if i = n then (S.moveOn (jobs n) x.store (x.phase n)).2.1 else x.phase i := fun i => rfl
    cases he : (x.phase n).ended with
    | true =>
      have ha := moveOn_ended S (jobs n) x.store (x.phase n) he
      have hst : (turn S jobs x n).store = x.store := by simp only [turn, ha]
      have hsame : ∀ i, (turn S jobs x n).phase i = x.phase i := by
        intro i
        rw [hph, ha]
        split
        · rename_i e; rw [e]
        · rfl
      refine ⟨cmds, sent, hst ▸ h1, fun i c r hrest => ?_⟩
      have := h2 i c r hrest
      rw [hsame] at this
      exact this
    | false =>
      obtain ⟨ps, g1, g2⟩ := move_step hS hc fp (jobs n) (hj n) x.store (x.phase n) (hx.phase n) hx.store he
      refine ⟨(n, cmdOf (moveStmt (jobs n) (x.phase n))) :: cmds, fun i =>
        if i = n then sentFor (cmdOf (moveStmt (jobs n) (x.phase n))) ps ++ sent i else sent i, ?_, fun i c r hrest => ?_⟩
      · rw [Spec.MigServer.talkEach, g1]
        have h1' : S.talkEach (S.moveOn (jobs n) x.store (x.phase n)).1 cmds = _ := h1
        simp only [Option.bind_eq_bind, Option.bind_some, h1']
        rfl
      · by_cases hi : i = n
        · subst hi
          dsimp only at hrest
          rw [if_pos rfl, rxOf_append, List.append_assoc] at hrest
          obtain ⟨k1, k2⟩ := g2 c _ hrest
          have hp := hph i
          rw [if_pos rfl] at hp
          by_cases hcr : (S.moveOn (jobs i) x.store (x.phase i)).2.1 = .crashed
          · have hend : ((turn S jobs x i).phase i).ended = true := by rw [hp, hcr]; rfl
            have hfin : (run S jobs x (i :: is)).phase i = .crashed := by
              rw [move_cons, move_stays S jobs _ _ hend, hp, hcr]
            exact ⟨fun _ => k1 hcr, fun h => absurd hfin h⟩
          · obtain ⟨q, k3⟩ := k2 hcr
            obtain ⟨m1, m2⟩ := h2 i _ r (MigRest.next hrest (rxOf (sent i) ++ r)
              (c.tx ++ Spec.commands [cmdOf (moveStmt (jobs i) (x.phase i))]) q)
            rw [hp, ← k3] at m1 m2
            refine ⟨m1, fun h => ?_⟩
            obtain ⟨q', m3⟩ := m2 h
            refine ⟨q', m3.trans ?_⟩
            have hcm : Spec.commands (Spec.commandsOf i ((i, cmdOf (moveStmt (jobs i) (x.phase i))) :: cmds)) =
                Spec.commands [cmdOf (moveStmt (jobs i) (x.phase i))] ++ Spec.commands (Spec.commandsOf i cmds) := by
              rw [← commands_append']
              simp [Spec.commandsOf]
            rw [hcm, ← List.append_assoc]
        · dsimp only at hrest
          rw [if_neg hi] at hrest
          have := h2 i c r hrest
          rw [hph, if_neg hi] at this
          have hcm : Spec.commandsOf i ((n, cmdOf (moveStmt (jobs n) (x.phase n))) :: cmds) = Spec.commandsOf i cmds := by
            simp [Spec.commandsOf, Ne.symm hi]
          rw [hcm]
          exact this

end Verif

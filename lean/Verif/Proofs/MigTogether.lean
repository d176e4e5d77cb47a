import Verif.Spec.MigTogether
import Verif.Props.C69_MigServer

/-! # Lemmas: several programs migrate one database at the same time -/

namespace Verif

open Spec (MigServer MigStore SqlError Applied MigJob MigPhase MigEvent MigSystem execAll)

/-- `Migrator::new(…).await?.up().await`. -/
def migrateUp (debug : Bool) (fp : FloatParse) (upSql downSql : MigKey → Str) (ms : List MigList) : M Unit := fun c =>
  match migratorOpen debug fp ms c with
  | (.ok a, c1) =>
    (((wired upSql downSql).up ms ⟨c1, a⟩).1, ((wired upSql downSql).up ms ⟨c1, a⟩).2.conn)
  | (.err e, c1) => (.err e, c1)
  | (.panic, c1) => (.panic, c1)

/-- what is left of a program. -/
def restOf {W : Type} (S : MigServer W) (fp : FloatParse) (j : MigJob) : MigPhase → M Unit
  | .ask => do
    ensureTable fp
    let a ← loadTable fp j.lists
    execAll (Spec.upStatements j.upSql (Spec.pendingUp none j.lists a))
  | .create => do
    let _ ← executeQuery createSql
    let a ← loadTable fp j.lists
    execAll (Spec.upStatements j.upSql (Spec.pendingUp none j.lists a))
  | .load => do
    let a ← loadTable fp j.lists
    execAll (Spec.upStatements j.upSql (Spec.pendingUp none j.lists a))
  | .up k ks => execAll (Spec.upStatements j.upSql (k :: ks))
  | .record k ks => execAll (insertSql k :: Spec.upStatements j.upSql ks)
  | .done => pure ()
  | .failed e => SM.fail (migRefusal S e)
  | .crashed => SM.crash

/-- the statement of a program that has not ended. -/
def stmtOf (j : MigJob) : MigPhase → Str
  | .ask => existsSql
  | .create => createSql
  | .load => selectSql
  | .up k _ => j.upSql k
  | .record k _ => insertSql k
  | _ => []

variable {W : Type} (S : MigServer W)

/-- What a program is given: versions in order, no name twice in one; the statements are not about
`migrations`; names without quotes. -/
structure FairJob (j : MigJob) : Prop where
  proper : Proper j.lists
  foreign : ∀ k ∈ Spec.declared j.lists, Foreign (j.upSql k)
  plain : ∀ k ∈ Spec.declared j.lists, Plain k

/-- the migrations ahead are those of the program. -/
def PhaseOk (j : MigJob) : MigPhase → Prop
  | .up k ks => ∀ i ∈ k :: ks, i ∈ Spec.declared j.lists
  | .record k ks => ∀ i ∈ k :: ks, i ∈ Spec.declared j.lists
  | _ => True

theorem migrateUp_eq (debug : Bool) (fp : FloatParse) (downSql : MigKey → Str) (j : MigJob) (hm : Proper j.lists) :
    migrateUp debug fp j.upSql downSql j.lists = restOf S fp j .ask := by
  have ho : ordered j.lists = true := by
    rw [C48_ordered]
    simp only [before_rank]
    exact hm.ordered
  have hdbg : (debug && !ordered j.lists) = false := by rw [ho]; simp
  funext c
  unfold migrateUp migratorOpen restOf
  rw [hdbg, if_neg (by simp)]
  simp only [SM.bind_apply]
  match ensureTable fp c with
  | (.err e, c1) => rfl
  | (.panic, c1) => rfl
  | (.ok (), c1) =>
    dsimp only
    match loadTable fp j.lists c1 with
    | (.err e, c2) => rfl
    | (.panic, c2) => rfl
    | (.ok a, c2) => exact (C68_up j.upSql downSql j.lists hm none ⟨c2, a⟩).1

theorem mtalk_one_inv {st st' : MigStore W} {m : Bytes} {sent rec : Bytes}
    (h : S.talk st [m] = some (st', sent, rec)) :
    ∃ ps, S.react st m = some (st', ps) ∧ sent = Spec.framesAll (UInt8.ofNat (Spec.frameCount m)) ps := by
  rw [Spec.MigServer.talk] at h
  match hr : S.react st m with
  | none => rw [hr] at h; cases h
  | some (st1, ps) =>
    rw [hr] at h
    simp only [Spec.MigServer.talk, Option.bind_eq_bind, Option.bind_some, Option.some.injEq, Prod.mk.injEq,
      List.append_nil] at h
    obtain ⟨rfl, rfl, -⟩ := h
    exact ⟨ps, rfl, rfl⟩

/-- what the server sends for these replies to a command. -/
def sentFor (m : Bytes) (ps : List Bytes) : Bytes := Spec.framesAll (UInt8.ofNat (Spec.frameCount m)) ps

/-- a statement without rows, and what follows. -/
theorem exec_then (hS : FairMig S) (st : MigStore W) (sql : Str) (h : IsExec sql) {α : Type} (k : M α) :
    ∃ ps, S.react st (cmdOf sql) = some ((match S.execute st sql with
        | .ok x => x.1
        | .error _ => st), ps) ∧
      ∀ (c : Conn) (r : List Rx), MigRest S c (rxOf (sentFor (cmdOf sql) ps) ++ r) →
        ∃ q, (do let _ ← executeQuery sql; k) c = (match S.execute st sql with
          | .ok _ => k
          | .error e => SM.fail (migRefusal S e)) { c with
            rx := r
            tx := c.tx ++ Spec.commands [cmdOf sql]
            seqId := q } := by
  obtain ⟨st', e, sent, h1, h2, h3⟩ := exec_one S hS st sql h
  obtain ⟨ps, h4, rfl⟩ := mtalk_one_inv S h1
  have h4' : S.react st (cmdOf sql) = some (st', ps) := h4
  refine ⟨ps, ?_, fun c r hc => ?_⟩
  · rw [h4']
    cases hx : S.execute st sql with
    | ok x => rw [hx] at h2; rw [h2.1]
    | error e' => rw [hx] at h2; rw [h2.1]
  · obtain ⟨q, h5⟩ := h3 c r hc
    refine ⟨q, ?_⟩
    rw [execAll_cons] at h5
    have hcm : Spec.commands [cmdOf sql] = Spec.commands [0x03 :: utf8 sql] := rfl
    rw [hcm, SM.bind_apply]
    cases hx : S.execute st sql with
    | ok x =>
      rw [hx] at h2
      obtain ⟨-, rfl⟩ := h2
      match he : executeQuery sql c with
      | (.ok y, c1) =>
        rw [he] at h5
        simp only [migOutcome] at h5
        cases h5
        rfl
      | (.err _, _) => rw [he] at h5; cases h5
      | (.panic, _) => rw [he] at h5; cases h5
    | error e' =>
      rw [hx] at h2
      obtain ⟨-, rfl⟩ := h2
      match he : executeQuery sql c with
      | (.ok y, c1) =>
        rw [he] at h5
        cases h5
      | (.err _, _) => rw [he] at h5; cases h5; rfl
      | (.panic, _) => rw [he] at h5; cases h5

theorem pendingUp_lacks {j : MigJob} {rows : List MigKey} {a : Version → List Str}
    (ha : ∀ k, Applied a k ↔ k ∈ rows) : Spec.pendingUp none j.lists a = j.lacks rows := by
  unfold Spec.pendingUp Spec.MigJob.lacks
  refine List.filter_congr fun k _ => ?_
  simp [ha, Spec.upTo]

theorem restOf_todo (fp : FloatParse) (j : MigJob) (ks : List MigKey) :
    restOf S fp j (.todo ks) = execAll (Spec.upStatements j.upSql ks) := by
  cases ks <;> rfl

theorem phaseOk_todo {j : MigJob} {ks : List MigKey} (h : ∀ i ∈ ks, i ∈ Spec.declared j.lists) :
    PhaseOk j (.todo ks) := by
  cases ks with
  | nil => trivial
  | cons => exact h

/-- names fit. -/
def StoreOk (st : MigStore W) : Prop := ∀ k ∈ st.table.getD [], k.2.length ≤ 255

attribute [local irreducible] existsSql createSql selectSql

/-- one statement of a program, on its connection. -/
def StepsTo (fp : FloatParse) (j : MigJob) (st : MigStore W) (p : MigPhase) (sql : Str) : Prop :=
  ∃ ps, S.react st (cmdOf sql) = some ((S.advance j st p).1, ps) ∧
    ∀ (c : Conn) (r : List Rx), MigRest S c (rxOf (sentFor (cmdOf sql) ps) ++ r) →
      ((S.advance j st p).2.1 = .crashed → (restOf S fp j p c).1 = .panic) ∧
      ((S.advance j st p).2.1 ≠ .crashed → ∃ q, restOf S fp j p c = restOf S fp j (S.advance j st p).2.1 { c with
          rx := r
          tx := c.tx ++ Spec.commands [cmdOf sql]
          seqId := q })

variable {S}

theorem step_ask (hS : FairMig S) (fp : FloatParse) (j : MigJob) (st : MigStore W) :
    StepsTo S fp j st .ask existsSql := by
  unfold StepsTo
  refine ⟨_, react_exists S st, fun c r hc => ?_⟩
  obtain ⟨q, h⟩ := ensureTable_ask S hS fp st c r hc
  constructor
  · intro hcr
    simp only [Spec.MigServer.advance] at hcr
    split at hcr <;> cases hcr
  · intro _
    refine ⟨q, ?_⟩
    simp only [Spec.MigServer.advance]
    simp only [restOf]
    rw [SM.bind_apply, h]
    cases hsome : st.table.isSome with
    | true => rfl
    | false =>
      simp only [Bool.false_eq_true, if_false]
      rw [← SM.bind_apply, sm_assoc]
      rfl

theorem execute_creates {sql : Str} (h : (Spec.tokens sql).bind Spec.readMig = some .create) {st : MigStore W} :
    S.execute st sql = match st.table with
      | none => .ok (⟨some [], st.world⟩, 0)
      | some _ => .error S.hasTable := by
  unfold Spec.MigServer.execute
  rw [h]
  cases st.table <;> rfl

theorem step_create (hS : FairMig S) (fp : FloatParse) (j : MigJob) (st : MigStore W) :
    StepsTo S fp j st .create createSql := by
  unfold StepsTo
  obtain ⟨ps, h1, h2⟩ := exec_then S hS st createSql isExec_create (do
    let a ← loadTable fp j.lists
    execAll (Spec.upStatements j.upSql (Spec.pendingUp none j.lists a)))
  rw [execute_creates reads_create] at h1 h2
  refine ⟨ps, ?_, fun c r hc => ?_⟩
  · rw [h1, Spec.MigServer.advance]
    cases st.table <;> rfl
  · obtain ⟨q, h⟩ := h2 c r hc
    rw [Spec.MigServer.advance]
    cases htab : st.table with
    | none =>
      rw [htab] at h
      exact ⟨fun h => by (cases h), fun _ => ⟨q, h⟩⟩
    | some rows =>
      rw [htab] at h
      exact ⟨fun h => by (cases h), fun _ => ⟨q, h⟩⟩

theorem step_load (hS : FairMig S) (fp : FloatParse) (j : MigJob) (hj : FairJob j) (st : MigStore W) (hk : StoreOk st) :
    StepsTo S fp j st .load selectSql := by
  unfold StepsTo
  obtain ⟨t, w⟩ := st
  cases t with
  | none =>
    have hreact : S.react ⟨none, w⟩ (cmdOf selectSql) = some (⟨none, w⟩, [S.errAnswer S.noTable]) := by
      unfold cmdOf
      rw [Spec.MigServer.react, fromUtf8_utf8]
      simp only [Option.bind_eq_bind, Option.bind_some]
      rw [reads_select]
    refine ⟨_, hreact, fun c r hc => ⟨fun h => by (cases h), fun _ => ?_⟩⟩
    have hrx := hc.rx
    unfold sentFor at hrx
    rw [framesAll_one] at hrx
    obtain ⟨e1, e2⟩ := hS.errors _ Spec.MigServer.Emits.noTable
    have ha : errAnswer c S.noTable.code S.noTable.state S.noTable.msg = S.errAnswer S.noTable := by
      unfold errAnswer Spec.MigServer.errAnswer stateOf
      rw [hc.p41]
    obtain ⟨q, h1⟩ := C14_query c r S.noTable.code S.noTable.state S.noTable.msg selectSql hc.pending
      hc.faults e1 (.inl e2) (by rw [ha]; exact hrx)
    refine ⟨q, ?_⟩
    simp only [restOf]
    have hl := SM.bind_of_err (f := fun rs => SM.get >>= fun c : Conn =>
      loadLoop fp j.lists (c.rx.length + 2) rs fun _ => []) h1
    have hl' : loadTable fp j.lists c = _ := hl
    rw [SM.bind_of_err hl']
    simp only [errSeen, stateOf, hc.p41]
    have hcm : Spec.commands [cmdOf selectSql] = Spec.frames 0 (0x03 :: utf8 selectSql) := by
      simp [Spec.commands, cmdOf]
    rw [hcm]
    rfl
  | some rows =>
    obtain ⟨sent, h1, h2⟩ := loadTable_talk S hS fp j.lists w rows hk
    obtain ⟨ps, h3, rfl⟩ := mtalk_one_inv S h1
    obtain ⟨m1, m2⟩ := C47_new j.lists hj.proper (S.order rows)
    have hperm := hS.order rows
    refine ⟨ps, h3, fun c r hc => ?_⟩
    obtain ⟨g1, g2⟩ := h2 c r hc
    have hrest : restOf S fp j .load = (do
      let a ← loadTable fp j.lists
      execAll (Spec.upStatements j.upSql (Spec.pendingUp none j.lists a))) := rfl
    rw [hrest]
    simp only [Spec.MigServer.advance]
    by_cases hall : (rows.all fun k => decide (k ∈ Spec.declared j.lists)) = true
    · rw [if_pos hall]
      refine ⟨fun h => ?_, fun _ => ?_⟩
      · unfold Spec.MigPhase.todo at h
        split at h <;> cases h
      · match hn : migratorNew j.lists (S.order rows) with
        | none =>
          exfalso
          obtain ⟨k, hk1, hk2⟩ := m2.1 hn
          rw [List.all_eq_true] at hall
          exact hk2 (of_decide_eq_true (hall k (hperm.mem_iff.1 hk1)))
        | some a =>
          obtain ⟨q, g3⟩ := g1 a hn
          refine ⟨q, ?_⟩
          rw [SM.bind_of_ok g3, restOf_todo,
            pendingUp_lacks fun k => (m1 a hn k).trans hperm.mem_iff]
    · rw [if_neg hall]
      refine ⟨fun _ => ?_, fun h => absurd rfl h⟩
      have hn : migratorNew j.lists (S.order rows) = none := by
        rw [List.all_eq_true] at hall
        push Not at hall
        obtain ⟨k, hk1, hk2⟩ := hall
        exact m2.2 ⟨k, hperm.mem_iff.2 hk1, by simpa using hk2⟩
      have := g2 hn
      match hl : loadTable fp j.lists c with
      | (.panic, c1) => rw [SM.bind_of_panic hl]
      | (.ok _, c1) => rw [hl] at this; cases this
      | (.err _, c1) => rw [hl] at this; cases this

theorem step_up (hS : FairMig S) (fp : FloatParse) (j : MigJob) (hj : FairJob j) (st : MigStore W) (k : MigKey) (ks : List MigKey)
    (hp : ∀ i ∈ k :: ks, i ∈ Spec.declared j.lists) :
    StepsTo S fp j st (.up k ks) (j.upSql k) := by
  unfold StepsTo
  have hf := hj.foreign k (hp k (List.mem_cons_self ..))
  obtain ⟨ps, h1, h2⟩ := exec_then S hS st (j.upSql k) (isExec_foreign hf)
    (execAll (insertSql k :: Spec.upStatements j.upSql ks))
  rw [execute_foreign S hf] at h1 h2
  refine ⟨ps, ?_, fun c r hc => ?_⟩
  · rw [h1, Spec.MigServer.advance]
    cases S.foreign st.world (j.upSql k) <;> rfl
  · obtain ⟨q, h⟩ := h2 c r hc
    rw [Spec.MigServer.advance]
    cases htab : S.foreign st.world (j.upSql k) with
    | ok w =>
      rw [htab] at h
      exact ⟨fun h => by (cases h), fun _ => ⟨q, h⟩⟩
    | error e =>
      rw [htab] at h
      exact ⟨fun h => by (cases h), fun _ => ⟨q, h⟩⟩

theorem step_record (hS : FairMig S) (fp : FloatParse) (j : MigJob) (hj : FairJob j) (st : MigStore W) (k : MigKey) (ks : List MigKey)
    (hp : ∀ i ∈ k :: ks, i ∈ Spec.declared j.lists) :
    StepsTo S fp j st (.record k ks) (insertSql k) := by
  unfold StepsTo
  have hf := hj.plain k (hp k (List.mem_cons_self ..))
  obtain ⟨ps, h1, h2⟩ := exec_then S hS st (insertSql k) (isExec_insert hf)
    (execAll (Spec.upStatements j.upSql ks))
  obtain ⟨t, w⟩ := st
  cases t with
  | none =>
    have hx : S.execute ⟨none, w⟩ (insertSql k) = .error S.noTable := by
      unfold Spec.MigServer.execute
      rw [reads_insert hf]
    rw [hx] at h1 h2
    refine ⟨ps, h1, fun c r hc => ⟨fun h => by (cases h), fun _ => h2 c r hc⟩⟩
  | some rows =>
    rw [execute_insert S hf] at h1 h2
    refine ⟨ps, ?_, fun c r hc => ?_⟩
    · rw [h1, Spec.MigServer.advance]
      dsimp only
      cases S.inserted w rows k.1.major.toNat k.1.minor.toNat k.1.patch.toNat k.2 <;> rfl
    · obtain ⟨q, h⟩ := h2 c r hc
      rw [Spec.MigServer.advance]
      dsimp only
      cases htab : S.inserted w rows k.1.major.toNat k.1.minor.toNat k.1.patch.toNat k.2 with
      | ok rows' =>
        rw [htab] at h
        refine ⟨fun h => ?_, fun _ => ⟨q, ?_⟩⟩
        · dsimp only at h
          unfold Spec.MigPhase.todo at h
          split at h <;> cases h
        · dsimp only
          rw [restOf_todo]
          exact h
      | error e =>
        rw [htab] at h
        exact ⟨fun h => by (cases h), fun _ => ⟨q, h⟩⟩

theorem phase_step (hS : FairMig S) (fp : FloatParse) (j : MigJob) (hj : FairJob j) (st : MigStore W)
    (p : MigPhase) (hp : PhaseOk j p) (hk : StoreOk st) (he : p.ended = false) :
    StepsTo S fp j st p (stmtOf j p) := by
  cases p with
  | ask => exact step_ask hS fp j st
  | create => exact step_create hS fp j st
  | load => exact step_load hS fp j hj st hk
  | up k ks => exact step_up hS fp j hj st k ks hp
  | record k ks => exact step_record hS fp j hj st k ks hp
  | done => cases he
  | failed e => cases he
  | crashed => cases he

variable (S)

theorem advance_ended (j : MigJob) (st : MigStore W) (p : MigPhase) (he : p.ended = true) :
    S.advance j st p = (st, p, []) := by
  cases p <;> first | rfl | cases he

theorem advance_ok (hc : Collates S) (j : MigJob) (st : MigStore W) (p : MigPhase) (hp : PhaseOk j p)
    (hk : StoreOk st) : PhaseOk j (S.advance j st p).2.1 ∧ StoreOk (S.advance j st p).1 := by
  unfold StoreOk at *
  cases p with
  | ask =>
    refine ⟨?_, hk⟩
    simp only [Spec.MigServer.advance]
    split <;> trivial
  | create =>
    rw [Spec.MigServer.advance]
    cases htab : st.table with
    | none => exact ⟨trivial, by simp⟩
    | some rows => rw [htab] at hk; exact ⟨trivial, by dsimp only; rw [htab]; exact hk⟩
  | load =>
    rw [Spec.MigServer.advance]
    cases htab : st.table with
    | none => exact ⟨trivial, by dsimp only; rw [htab]; simp⟩
    | some rows =>
      rw [htab] at hk
      refine ⟨?_, by dsimp only; rw [htab]; exact hk⟩
      dsimp only
      split
      · exact phaseOk_todo fun i hi => (List.mem_filter.1 hi).1
      · trivial
  | up k ks =>
    rw [Spec.MigServer.advance]
    cases S.foreign st.world (j.upSql k) with
    | ok w => exact ⟨hp, hk⟩
    | error e => exact ⟨trivial, hk⟩
  | record k ks =>
    rw [Spec.MigServer.advance]
    cases htab : st.table with
    | none => exact ⟨trivial, by dsimp only; rw [htab]; simp⟩
    | some rows =>
      rw [htab] at hk
      dsimp only
      cases hx : S.inserted st.world rows k.1.major.toNat k.1.minor.toNat k.1.patch.toNat k.2 with
      | ok rows' =>
        refine ⟨phaseOk_todo fun i hi => hp i (List.mem_cons_of_mem _ hi), ?_⟩
        obtain ⟨n, h1, rfl, -⟩ := inserted_ok S hx
        intro i hi
        rcases List.mem_append.1 hi with hi | hi
        · exact hk i hi
        · rw [List.mem_singleton] at hi
          subst hi
          rcases h1 with ⟨h1, rfl⟩ | ⟨-, h1⟩
          · exact h1
          · exact hc.cut _ _ h1
      | error e => exact ⟨trivial, by dsimp only; rw [htab]; exact hk⟩
  | done => exact ⟨trivial, hk⟩
  | failed e => exact ⟨trivial, hk⟩
  | crashed => exact ⟨trivial, hk⟩

/-! ### the whole -/

open Spec.MigSystem (turn run started rows)

variable (jobs : Nat → MigJob)

theorem run_nil (x : MigSystem W) : run S jobs x [] = x := rfl
theorem run_cons (x : MigSystem W) (i : Nat) (is : List Nat) : run S jobs x (i :: is) = run S jobs (turn S jobs x i) is := rfl
theorem run_snoc (x : MigSystem W) (is : List Nat) (i : Nat) :
    run S jobs x (is ++ [i]) = turn S jobs (run S jobs x is) i := by
  unfold run
  rw [List.foldl_append]
  rfl

/-- something that holds at the start and is kept by every turn holds always. -/
theorem run_always {P : MigSystem W → Prop} {x : MigSystem W} (h0 : P x)
    (hstep : ∀ y i, P y → P (turn S jobs y i)) (is : List Nat) : P (run S jobs x is) := by
  induction is generalizing x with
  | nil => exact h0
  | cons i is ih => exact ih (hstep x i h0)

theorem ended_stays (x : MigSystem W) (n : Nat) (h : (x.phase n).ended = true) (is : List Nat) :
    (run S jobs x is).phase n = x.phase n := by
  refine run_always S jobs (P := fun y => y.phase n = x.phase n) rfl (fun y i hy => ?_) is
  simp only [turn]
  split
  · rename_i e
    subst e
    rw [hy, advance_ended S _ _ _ h]
  · exact hy

/-- what is kept. -/
structure SystemOk (x : MigSystem W) : Prop where
  store : StoreOk x.store
  phase : ∀ i, PhaseOk (jobs i) (x.phase i)

theorem SystemOk.turn {S : MigServer W} {jobs : Nat → MigJob} (hc : Collates S) {x : MigSystem W} (h : SystemOk jobs x) (i : Nat) :
    SystemOk jobs (turn S jobs x i) := by
  obtain ⟨h1, h2⟩ := advance_ok S hc (jobs i) x.store (x.phase i) (h.phase i) h.store
  refine ⟨h2, fun n => ?_⟩
  simp only [Spec.MigSystem.turn]
  split
  · rename_i e
    subst e
    exact h1
  · exact h.phase n

/-- the programs on their connections, from any point on. -/
theorem run_talk (hS : FairMig S) (hc : Collates S) (fp : FloatParse) (hj : ∀ i, FairJob (jobs i))
    (schedule : List Nat) (x : MigSystem W) (hx : SystemOk jobs x) :
    ∃ cmds sent, S.talkEach x.store cmds = some ((run S jobs x schedule).store, sent) ∧
      ∀ i (c : Conn) (r : List Rx), MigRest S c (rxOf (sent i) ++ r) →
        ((run S jobs x schedule).phase i = .crashed → (restOf S fp (jobs i) (x.phase i) c).1 = .panic) ∧
        ((run S jobs x schedule).phase i ≠ .crashed → ∃ q, restOf S fp (jobs i) (x.phase i) c =
          restOf S fp (jobs i) ((run S jobs x schedule).phase i) { c with
            rx := r
            tx := c.tx ++ Spec.commands (Spec.commandsOf i cmds)
            seqId := q }) := by
  induction schedule generalizing x with
  | nil =>
    refine ⟨[], fun _ => [], rfl, fun i c r hrest => ⟨fun h => ?_, fun h => ⟨c.seqId, ?_⟩⟩⟩
    · rw [run_nil] at h
      rw [h]
      rfl
    · rw [run_nil]
      have := hrest.rx
      have e : c = { c with
          rx := r
          tx := c.tx ++ Spec.commands (Spec.commandsOf i [])
          seqId := c.seqId } := by
        cases c
        simp only [Spec.commandsOf, Spec.commands, List.filterMap_nil, List.flatMap_nil, List.append_nil]
        simp only at this
        rw [this]
        rfl
      rw [← e]
  | cons n is ih =>
    obtain ⟨cmds, sent, h1, h2⟩ := ih (turn S jobs x n) (hx.turn hc n)
    rw [← run_cons] at h1 h2
    have hph : ∀ i, (turn S jobs x n).phase i =
        if i = n then (S.advance (jobs n) x.store (x.phase n)).2.1 else x.phase i := fun i => rfl
    cases he : (x.phase n).ended with
    | true =>
      have ha := advance_ended S (jobs n) x.store (x.phase n) he
      have hst : (turn S jobs x n).store = x.store := by simp only [turn, ha]
      have hsame : ∀ i, (turn S jobs x n).phase i = x.phase i := by
        intro i
        rw [hph, ha]
        split
        · rename_i e; rw [e]
        · rfl
      refine ⟨cmds, sent, hst ▸ h1, fun i c r hrest => ?_⟩
      have := h2 i c r hrest
      rw [hsame] at this
      exact this
    | false =>
      obtain ⟨ps, g1, g2⟩ := phase_step hS fp (jobs n) (hj n) x.store (x.phase n) (hx.phase n) hx.store he
      refine ⟨(n, cmdOf (stmtOf (jobs n) (x.phase n))) :: cmds, fun i =>
        if i = n then sentFor (cmdOf (stmtOf (jobs n) (x.phase n))) ps ++ sent i else sent i, ?_, fun i c r hrest => ?_⟩
      · rw [Spec.MigServer.talkEach, g1]
        have h1' : S.talkEach (S.advance (jobs n) x.store (x.phase n)).1 cmds = _ := h1
        simp only [Option.bind_eq_bind, Option.bind_some, h1']
        rfl
      · by_cases hi : i = n
        · subst hi
          dsimp only at hrest
          rw [if_pos rfl, rxOf_append, List.append_assoc] at hrest
          obtain ⟨k1, k2⟩ := g2 c _ hrest
          have hp := hph i
          rw [if_pos rfl] at hp
          by_cases hcr : (S.advance (jobs i) x.store (x.phase i)).2.1 = .crashed
          · have hend : ((turn S jobs x i).phase i).ended = true := by rw [hp, hcr]; rfl
            have hfin : (run S jobs x (i :: is)).phase i = .crashed := by
              rw [run_cons, ended_stays S jobs _ _ hend, hp, hcr]
            exact ⟨fun _ => k1 hcr, fun h => absurd hfin h⟩
          · obtain ⟨q, k3⟩ := k2 hcr
            obtain ⟨m1, m2⟩ := h2 i _ r (MigRest.next hrest (rxOf (sent i) ++ r)
              (c.tx ++ Spec.commands [cmdOf (stmtOf (jobs i) (x.phase i))]) q)
            rw [hp, ← k3] at m1 m2
            refine ⟨m1, fun h => ?_⟩
            obtain ⟨q', m3⟩ := m2 h
            refine ⟨q', m3.trans ?_⟩
            have hcm : Spec.commands (Spec.commandsOf i ((i, cmdOf (stmtOf (jobs i) (x.phase i))) :: cmds)) =
                Spec.commands [cmdOf (stmtOf (jobs i) (x.phase i))] ++ Spec.commands (Spec.commandsOf i cmds) := by
              rw [← commands_append']
              simp [Spec.commandsOf]
            rw [hcm, ← List.append_assoc]
        · dsimp only at hrest
          rw [if_neg hi] at hrest
          have := h2 i c r hrest
          rw [hph, if_neg hi] at this
          have hcm : Spec.commandsOf i ((n, cmdOf (stmtOf (jobs n) (x.phase n))) :: cmds) = Spec.commandsOf i cmds := by
            simp [Spec.commandsOf, Ne.symm hi]
          rw [hcm]
          exact this

end Verif

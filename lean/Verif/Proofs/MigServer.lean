import Verif.Spec.MigServer
import Verif.Props.C12_Iteration
import Verif.Props.C14_ServerErrors
import Verif.Props.C15_OkPackets
import Verif.Props.C49_MigrationSql
import Verif.Props.C68_MigratorWire

/-! # Lemmas: the migrator and a server with a table of migrations -/

namespace Verif

open Spec (MigServer MigStore MigCmd execAll Applied SqlError)
open Spec.MigServer (talk react execute executeAll applyAll revertAll)

variable {W : Type} (S : MigServer W)

/-- messages fit, errors have a state of five bytes and do not look like progress reports, the
descriptions of the columns fit, rows are sent in some order. -/
structure FairMig : Prop where
  message : (utf8 S.message).length < 2 ^ 64
  errors : ∀ e : SqlError, S.Emits e → (utf8 e.state).length = 5 ∧ e.code ≠ 0xFFFF
  order : ∀ rows, (S.order rows).Perm rows
  desc : ∀ col, shortNames (S.desc col) ∧ (S.desc col).flags < 2 ^ 16 ∧ (S.desc col).charset < 2 ^ 16 ∧
    (S.desc col).length < 2 ^ 32
  one : ∃ t, DescOk S.oneDesc t ∧ ∃ w u, Spec.intWidth S.oneDesc.code = some w ∧ 0 < w ∧
    (columnOf S.oneDesc t).wireType = (S.oneDesc.code, u)

/-- the connection is between two commands, and these bytes arrive next. -/
structure MigRest (c : Conn) (rx : List Rx) : Prop where
  pending : c.pendingResult = false
  faults : c.wfaults = []
  track : hasFlag32 c.data.capabilities Cap.SESSION_TRACK = false
  p41 : hasFlag32 c.data.capabilities Cap.PROTOCOL_41 = S.protocol41
  rx : c.rx = rx

variable {S}

theorem MigRest.next {c : Conn} {rx : List Rx} (h : MigRest S c rx) (rx' : List Rx) (tx : Bytes) (q : UInt8) :
    MigRest S { c with
      rx := rx'
      tx := tx
      seqId := q } rx' :=
  ⟨h.pending, h.faults, h.track, h.p41, rfl⟩

variable (S)

/-- the error the caller gets. -/
def migRefusal (e : SqlError) : Error :=
  .server (.error e.code (if S.protocol41 then some (utf8 e.state) else none) e.msg)

/-- the outcome. -/
def migOutcome : Option SqlError → Out Error Unit
  | none => .ok ()
  | some e => .err (migRefusal S e)

theorem framesAll_one (s : UInt8) (p : Bytes) : Spec.framesAll s [p] = Spec.frames s p := by
  simp [Spec.framesAll]

theorem mtalk_append (st : MigStore W) (a b : List Bytes) :
    S.talk st (a ++ b) = (S.talk st a).bind fun x => (S.talk x.1 b).map fun y =>
      (y.1, x.2.1 ++ y.2.1, x.2.2 ++ y.2.2) := by
  induction a generalizing st with
  | nil =>
    rw [List.nil_append, talk]
    simp only [Option.bind_some, List.nil_append]
    cases S.talk st b <;> rfl
  | cons m a ih =>
    rw [List.cons_append, talk, talk]
    cases S.react st m with
    | none => rfl
    | some x =>
      simp only [Option.bind_eq_bind, Option.bind_some, ih]
      cases S.talk x.1 a with
      | none => rfl
      | some y =>
        simp only [Option.bind_some]
        cases S.talk y.1 b with
        | none => rfl
        | some z => simp [List.append_assoc]

theorem mtalk_one (st st' : MigStore W) (m : Bytes) (ps : List Bytes) (h : S.react st m = some (st', ps)) :
    S.talk st [m] = some (st', Spec.framesAll (UInt8.ofNat (Spec.frameCount m)) ps, Spec.commands [m]) := by
  rw [talk, h]
  simp [talk, Spec.commands]

/-- a statement that is executed, not a query. -/
def IsExec (sql : Str) : Prop :=
  (Spec.tokens sql).bind Spec.readMig ≠ some .tableExists ∧ (Spec.tokens sql).bind Spec.readMig ≠ some .select

theorem react_exec (st : MigStore W) (sql : Str) (h : IsExec sql) :
    S.react st (0x03 :: utf8 sql) =
      match S.execute st sql with
      | .ok (st', n) => some (st', [S.okAnswer n])
      | .error e => some (st, [S.errAnswer e]) := by
  rw [react]
  rw [fromUtf8_utf8]
  simp only [Option.bind_eq_bind, Option.bind_some]
  obtain ⟨h1, h2⟩ := h
  split
  · rename_i h3; exact absurd h3 h1
  · rename_i h3; exact absurd h3 h2
  · rfl

theorem inserted_error {w : W} {rows : List MigKey} {a b c : Nat} {n : Str} {e : SqlError}
    (h : S.inserted w rows a b c n = .error e) :
    S.Emits e := by
  unfold Spec.MigServer.inserted at h
  split at h
  · split at h
    · rename_i e' h'
      cases h
      split at h'
      · exact .long h'
      · cases h'
    · dsimp only at h
      split at h
      · cases h
        exact .duplicate
      · split at h
        · rename_i h'
          cases h
          exact .refuse h'
        · cases h
  · cases h
    exact .outOfRange

theorem execute_error (hS : FairMig S) {st : MigStore W} {sql : Str} {e : SqlError}
    (h : S.execute st sql = .error e) : (utf8 e.state).length = 5 ∧ e.code ≠ 0xFFFF := by
  apply hS.errors
  unfold Spec.MigServer.execute at h
  split at h
  · split at h
    · cases h
    · cases h; exact .hasTable
  · split at h
    · cases h; exact .noTable
    · split at h
      · cases h
      · rename_i h'
        cases h
        exact inserted_error S h'
  · split at h
    · cases h; exact .noTable
    · cases h
  · split at h
    · cases h
    · rename_i h'
      cases h
      exact .foreign h'

theorem exec_one (hS : FairMig S) (st : MigStore W) (sql : Str) (h : IsExec sql) :
    ∃ st' e sent, S.talk st [0x03 :: utf8 sql] = some (st', sent, Spec.commands [0x03 :: utf8 sql]) ∧
      (match S.execute st sql with
        | .ok x => st' = x.1 ∧ e = none
        | .error e' => st' = st ∧ e = some e') ∧
      ∀ (c : Conn) (r : List Rx), MigRest S c (rxOf sent ++ r) →
        ∃ q, execAll [sql] c = (migOutcome S e, { c with
          rx := r
          tx := c.tx ++ Spec.commands [0x03 :: utf8 sql]
          seqId := q }) := by
  have hr := react_exec S st sql h
  cases hx : S.execute st sql with
  | ok x =>
    obtain ⟨st', n⟩ := x
    rw [hx] at hr
    refine ⟨st', none, _, mtalk_one S st st' _ _ hr, ⟨rfl, rfl⟩, fun c r hc => ?_⟩
    have hrx := hc.rx
    rw [framesAll_one] at hrx
    obtain ⟨q, h1⟩ := C15_execute_query c r (S.affected n) 0 S.status S.warnings S.message sql hc.pending
      hc.faults hS.message hc.track hrx
    refine ⟨q, ?_⟩
    rw [execAll_cons, h1]
    simp [execAll, migOutcome, Spec.commands]
  | error e =>
    rw [hx] at hr
    refine ⟨st, some e, _, mtalk_one S st st _ _ hr, ⟨rfl, rfl⟩, fun c r hc => ?_⟩
    have hrx := hc.rx
    rw [framesAll_one] at hrx
    obtain ⟨e1, e2⟩ := execute_error S hS hx
    have ha : errAnswer c e.code e.state e.msg = S.errAnswer e := by
      unfold errAnswer Spec.MigServer.errAnswer stateOf
      rw [hc.p41]
    obtain ⟨q, h1⟩ := C14_execute_query c r e.code e.state e.msg sql hc.pending
      hc.faults e1 (.inl e2) (by rw [ha]; exact hrx)
    refine ⟨q, ?_⟩
    rw [execAll_cons, h1]
    simp only [migOutcome, migRefusal, errSeen, stateOf, hc.p41]
    simp [Spec.commands]

theorem exec_query {sql : Str} {e : Option SqlError} {c c1 : Conn}
    (h : execAll [sql] c = (migOutcome S e, c1)) :
    (e = none → ∃ x, executeQuery sql c = (.ok x, c1)) ∧ (e ≠ none → (execAll [sql] c).1 ≠ .ok ()) := by
  constructor
  · rintro rfl
    rw [execAll_cons] at h
    match hx : executeQuery sql c with
    | (.ok x, c2) =>
      rw [hx] at h
      dsimp only at h
      cases h
      exact ⟨x, rfl⟩
    | (.err _, _) => rw [hx] at h; cases h
    | (.panic, _) => rw [hx] at h; cases h
  · intro he
    match e, he with
    | some e, _ => rw [h]; exact fun h => by cases h

/-- the migrations whose own statement is executed. -/
def ackedKeys (f g : MigKey → Str) (st : MigStore W) : List MigKey → List MigKey
  | [] => []
  | k :: ks =>
    match S.execute st (f k) with
    | .error _ => []
    | .ok (st1, _) =>
      match S.execute st1 (g k) with
      | .error _ => [k]
      | .ok (st2, _) => k :: ackedKeys f g st2 ks

/-- executing pairs of statements, against the server. -/
theorem pairs_talk (hS : FairMig S) (f g : MigKey → Str) (ks : List MigKey)
    (hf : ∀ k ∈ ks, IsExec (f k)) (hg : ∀ k ∈ ks, IsExec (g k)) (st : MigStore W) :
    ∃ cmds sent, S.talk st cmds =
        some ((S.executeAll st (ks.flatMap fun k => [f k, g k])).1, sent, Spec.commands cmds) ∧
      cmds <+: (ks.flatMap fun k => [f k, g k]).map (fun s => 0x03 :: utf8 s) ∧
      ((S.executeAll st (ks.flatMap fun k => [f k, g k])).2.2 = none →
        cmds = (ks.flatMap fun k => [f k, g k]).map (fun s => 0x03 :: utf8 s)) ∧
      ∀ (c : Conn) (r : List Rx), MigRest S c (rxOf sent ++ r) →
        (∃ q, execAll (ks.flatMap fun k => [f k, g k]) c =
          (migOutcome S (S.executeAll st (ks.flatMap fun k => [f k, g k])).2.2, { c with
          rx := r
          tx := c.tx ++ Spec.commands cmds
          seqId := q })) ∧
        ∀ j, Acked f g ks c j ↔ j ∈ ackedKeys S f g st ks := by
  induction ks generalizing st with
  | nil =>
    refine ⟨[], [], rfl, List.nil_prefix, fun _ => rfl, fun c r hc => ⟨⟨c.seqId, ?_⟩, fun j => ?_⟩⟩
    · have h := hc.rx
      rw [rxOf_nil, List.nil_append] at h
      have : ({ c with rx := r, tx := c.tx ++ Spec.commands [], seqId := c.seqId } : Conn) = c := by
        simp [Spec.commands, ← h]
      rw [this]
      rfl
    · exact ⟨fun h => absurd h acked_nil, fun h => by cases h⟩
  | cons k ks ih =>
    obtain ⟨st1, e1, sent1, h1, h2, h3⟩ := exec_one S hS st (f k) (hf k (List.mem_cons_self ..))
    rw [List.flatMap_cons, List.cons_append, List.cons_append, List.nil_append, executeAll, ackedKeys]
    cases hex : S.execute st (f k) with
    | error e =>
      rw [hex] at h2
      obtain ⟨rfl, rfl⟩ := h2
      refine ⟨_, sent1, h1, ⟨_, rfl⟩, fun h => (by cases h), fun c r hc => ?_⟩
      obtain ⟨q, h4⟩ := h3 c r hc
      have hno := (exec_query S h4).2 (by simp)
      refine ⟨⟨q, ?_⟩, fun j => ⟨fun h => absurd h (acked_cons_none hno j), fun h => by cases h⟩⟩
      rw [show f k :: g k :: ks.flatMap (fun k => [f k, g k]) = [f k] ++ (g k :: ks.flatMap fun k => [f k, g k]) from rfl,
        execAll_stop _ hno]
      exact h4
    | ok x =>
      obtain ⟨st', n⟩ := x
      rw [hex] at h2
      obtain ⟨rfl, rfl⟩ := h2
      dsimp only
      obtain ⟨st2, e2, sent2, g1, g2, g3⟩ := exec_one S hS st1 (g k) (hg k (List.mem_cons_self ..))
      rw [executeAll]
      cases hex2 : S.execute st1 (g k) with
      | error e =>
        rw [hex2] at g2
        obtain ⟨rfl, rfl⟩ := g2
        refine ⟨[0x03 :: utf8 (f k)] ++ [0x03 :: utf8 (g k)], sent1 ++ sent2, ?_, ⟨_, rfl⟩, fun h => (by cases h),
          fun c r hc => ?_⟩
        · rw [mtalk_append, h1, Option.bind_some, g1, Option.map_some, commands_append']
        · obtain ⟨q1, h4⟩ := h3 c (rxOf sent2 ++ r)
            ⟨hc.pending, hc.faults, hc.track, hc.p41, by rw [hc.rx, rxOf_append, List.append_assoc]⟩
          obtain ⟨q2, h5⟩ := g3 _ r (MigRest.next hc (rxOf sent2 ++ r) (c.tx ++ Spec.commands [0x03 :: utf8 (f k)]) q1)
          have hno := (exec_query S h5).2 (by simp)
          obtain ⟨x, hx⟩ := (exec_query S h4).1 rfl
          refine ⟨⟨q2, ?_⟩, fun j => ?_⟩
          · rw [show f k :: g k :: ks.flatMap (fun k => [f k, g k]) =
              [f k] ++ ([g k] ++ ks.flatMap fun k => [f k, g k]) from rfl,
              execAll_append_ok _ h4, execAll_stop _ hno, h5, commands_append', List.append_assoc]
          · rw [acked_cons_half hx hno, List.mem_singleton]
      | ok x =>
        obtain ⟨st', n'⟩ := x
        rw [hex2] at g2
        obtain ⟨rfl, rfl⟩ := g2
        dsimp only
        obtain ⟨cmds3, sent3, k1, k2, k3, k4⟩ := ih (fun j hj => hf j (List.mem_cons_of_mem _ hj))
          (fun j hj => hg j (List.mem_cons_of_mem _ hj)) st2
        refine ⟨([0x03 :: utf8 (f k)] ++ [0x03 :: utf8 (g k)]) ++ cmds3, (sent1 ++ sent2) ++ sent3, ?_, ?_, ?_,
          fun c r hc => ?_⟩
        · rw [mtalk_append, mtalk_append, h1, Option.bind_some, g1, Option.map_some, Option.bind_some, k1,
            Option.map_some, commands_append', commands_append']
        · exact (List.prefix_append_right_inj ([0x03 :: utf8 (f k)] ++ [0x03 :: utf8 (g k)])).2 k2
        · intro h
          rw [k3 h]
          rfl
        · obtain ⟨q1, h4⟩ := h3 c (rxOf sent2 ++ (rxOf sent3 ++ r))
            ⟨hc.pending, hc.faults, hc.track, hc.p41, by
              rw [hc.rx, rxOf_append, rxOf_append, List.append_assoc, List.append_assoc]⟩
          have hc1 := MigRest.next hc (rxOf sent2 ++ (rxOf sent3 ++ r)) (c.tx ++ Spec.commands [0x03 :: utf8 (f k)]) q1
          obtain ⟨q2, h5⟩ := g3 _ (rxOf sent3 ++ r) hc1
          have hc2 := MigRest.next hc (rxOf sent3 ++ r)
            (c.tx ++ Spec.commands [0x03 :: utf8 (f k)] ++ Spec.commands [0x03 :: utf8 (g k)]) q2
          obtain ⟨⟨q3, h6⟩, h7⟩ := k4 _ r hc2
          obtain ⟨x, hx⟩ := (exec_query S h4).1 rfl
          obtain ⟨y, hy⟩ := (exec_query S h5).1 rfl
          refine ⟨⟨q3, ?_⟩, fun j => ?_⟩
          · rw [show f k :: g k :: ks.flatMap (fun k => [f k, g k]) =
              [f k] ++ ([g k] ++ ks.flatMap fun k => [f k, g k]) from rfl,
              execAll_append_ok _ h4, execAll_append_ok _ h5, h6, commands_append', commands_append']
            simp only [List.append_assoc]
          · rw [acked_cons_ok hx hy, List.mem_cons, h7]

end Verif

import Verif.Spec.StoreMany
import Verif.Proofs.RoundTrip
import Verif.Proofs.Migrator

/-! # Lemmas: several programs that store models -/

namespace Verif

open Spec (SqlServer SqlState Tables Row Field Rec Writable WritableRefs Script StoreJob StoreStep StoreEvent
  StoreSystem setPlain setStructs ownKey insertScript refsScript jobsScript)
open Spec.SqlServer (Stores meanings withRow Session Happens)

/-! ### the fields that are set -/

theorem setPlain_eq {plain fs} (h : Spec.PlainSet plain fs) : setPlain plain = fs := by
  induction h with
  | nil => rfl
  | unset _ ih => exact ih
  | set _ ih => exact congrArg (_ :: ·) ih

theorem setStructs_eq {structs gs} (h : Spec.StructSet structs gs) : setStructs structs = gs := by
  induction h with
  | nil => rfl
  | unset _ ih => exact ih
  | @set n r fs ms _ ih =>
    rw [← ih]
    show _ ++ setStructs r = _
    congr 1
    induction ms with
    | nil => rfl
    | cons m ms ih' => exact congrArg (_ :: ·) ih'

theorem ownKey_of (m : ActiveModel) (id : UInt64) : Spec.KeyOf m id (ownKey m id) := by
  match m with
  | .mk t none plain structs refs =>
    have : ownKey (.mk t none plain structs refs) id = .ulong id := by
      rw [ownKey, List.findSome?_eq_none_iff.2]
      · rfl
      · intro f _
        split <;> simp
    rw [this]
    exact .without
  | .mk t (some p) plain structs refs =>
    rw [ownKey]
    cases h : plain.findSome? fun f => match f.2 with
      | some (.ok v) => if some f.1 = some p then some v else none
      | _ => none with
    | none =>
      refine .assigned fun v hv => ?_
      have := List.findSome?_eq_none_iff.1 h _ hv
      simp at this
    | some v =>
      obtain ⟨f, hf, he⟩ := List.exists_of_findSome?_eq_some h
      obtain ⟨n, x⟩ := f
      dsimp only at he
      split at he
      · split at he
        next hn =>
          cases hn
          cases he
          exact .own hf
        · cases he
      · cases he

/-! ### a script as a program -/

/-- active_model/mod.rs 27-29 and update_model.rs 25-29: one statement. -/
def runStep : StoreStep → M UInt64
  | .row t fs => executeInsert t fs
  | .change t key id fs => do
    let p ← prepareStatement (intoUpdate fs t key)
    let _ ← p.execute (fs.map (·.2) ++ [id])
    pure 0

def exec {α : Type} : Script α → M α
  | .done a => pure a
  | .stmt s k => runStep s >>= fun id => exec (k id)

theorem exec_andThen {α β : Type} (p : Script α) (f : α → Script β) :
    exec (p.andThen f) = exec p >>= fun a => exec (f a) := by
  induction p with
  | done a => rfl
  | stmt s k ih =>
    rw [Script.andThen, exec, exec, sm_assoc]
    congr 1
    funext id
    exact ih id

theorem ok_bind {α β : Type} {m : M α} {a : α} (h : ∀ c, m c = (.ok a, c)) (f : α → M β) : m >>= f = f a := by
  funext c
  rw [SM.bind_of_ok (h c)]

mutual
theorem insert_exec (m : ActiveModel) (hw : Writable m) (hd : Spec.allDistinct m) :
    exec (insertScript m) = m.insert := by
  match m with
  | .mk t p plain structs refs =>
    rw [Writable] at hw
    obtain ⟨w1, w2, w3, w4, w5, w6, w7⟩ := hw
    obtain ⟨fs, a1, _⟩ := plain_set plain w5
    obtain ⟨gs, b1, _⟩ := struct_set structs w6
    rw [insertScript, exec_andThen, refs_exec refs w7 hd.2, ActiveModel.insert,
      ok_bind (fun c => (plainValues_ok _ _ _ _).2 ⟨a1, rfl⟩), ok_bind (fun c => (structValues_ok _ _ _ _).2 ⟨b1, rfl⟩),
      setPlain_eq a1, setStructs_eq b1]
    congr 1
    funext fks
    rw [exec]
    show (executeInsert t (fs ++ gs ++ fks) >>= fun id => pure id) = _
    funext c
    rw [SM.bind_apply]
    match executeInsert t (fs ++ gs ++ fks) c with
    | (.ok a, s') => rfl
    | (.err e, s') => rfl
    | (.panic, s') => rfl

theorem refs_exec (r : ActiveRefs) (hw : WritableRefs r) (hd : Spec.allDistinctRefs r) :
    exec (refsScript r) = refValues r := by
  match r with
  | .nil => rw [refsScript, refValues]; rfl
  | .unset f r => rw [refsScript, refValues]; exact refs_exec r hw hd
  | .set f v r =>
    rw [WritableRefs] at hw
    rw [refsScript, refValues, exec_andThen, refs_exec r hw.2 hd]
    rfl
  | .insert f m r =>
    rw [WritableRefs] at hw
    have hm : Spec.ActiveModel.Distinct m := by
      match m, hd with
      | .mk .., hd => exact hd.1.1
    rw [refsScript, refValues, exec_andThen, insert_exec m hw.1 hd.1]
    congr 1
    funext id
    rw [exec_andThen, refs_exec r hw.2 hd.2, (key_eq m hm id _).1 (ownKey_of m id)]
    rfl
end

/-- the calls of a program, the first error ends it. -/
def runJob : StoreJob → M UInt64
  | .insert m => m.insert
  | .update key id m => do
    m.update id key
    pure 0

def runJobs : List StoreJob → M (List UInt64)
  | [] => pure []
  | j :: js => do
    let id ← runJob j
    let ids ← runJobs js
    pure (id :: ids)

theorem job_exec (j : StoreJob) (h : j.Fits) : exec j.script = runJob j := by
  match j with
  | .insert m => exact insert_exec m h.1 h.2
  | .update key id (.mk t p plain structs refs) =>
    obtain ⟨hw, hd, -⟩ := h
    rw [Writable] at hw
    obtain ⟨w1, w2, w3, w4, w5, w6, w7⟩ := hw
    obtain ⟨fs, a1, _⟩ := plain_set plain w5
    obtain ⟨gs, b1, _⟩ := struct_set structs w6
    rw [StoreJob.script, runJob, ActiveModel.update, ActiveModel.intoValues, exec_andThen, refs_exec refs w7 hd.2,
      ok_bind (fun c => (plainValues_ok _ _ _ _).2 ⟨a1, rfl⟩), ok_bind (fun c => (structValues_ok _ _ _ _).2 ⟨b1, rfl⟩),
      setPlain_eq a1, setStructs_eq b1, sm_assoc, sm_assoc]
    congr 1
    funext fks
    rw [ok_bind (m := pure (fs ++ gs ++ fks)) (fun c => rfl)]
    by_cases he : fs ++ gs ++ fks = []
    · rw [if_pos he, if_neg (by simpa using he)]
      rfl
    · rw [if_neg he, if_pos he, exec]
      show ((prepareStatement _ >>= _) >>= _) = ((prepareStatement _ >>= _) >>= _)
      rw [sm_assoc, sm_assoc]
      congr 1
      funext pr
      rw [sm_assoc, sm_assoc]
      rfl

theorem jobs_exec (js : List StoreJob) (h : ∀ j ∈ js, j.Fits) : exec (jobsScript js) = runJobs js := by
  induction js with
  | nil => rfl
  | cons j js ih =>
    rw [jobsScript, runJobs, exec_andThen, job_exec j (h j (List.mem_cons_self ..))]
    congr 1
    funext id
    rw [exec_andThen, ih fun k hk => h k (List.mem_cons_of_mem _ hk)]
    rfl

/-! ### statements that can be written -/

def StepOk : StoreStep → Prop
  | .row t fs => RowOk t fs
  | .change t key id fs => RowOk t fs ∧ fs ≠ [] ∧ '`' ∉ key ∧ fs.length + 1 < 2 ^ 16 ∧ Spec.Sendable id

/-- whatever the ids are: the statements can be written, and at the end there is something like this. -/
def ScriptAll {α : Type} (Q : α → Prop) : Script α → Prop
  | .done a => Q a
  | .stmt s k => StepOk s ∧ ∀ id, ScriptAll Q (k id)

theorem ScriptAll.andThen {α β : Type} {Q : α → Prop} {R : β → Prop} {p : Script α} {f : α → Script β}
    (hp : ScriptAll Q p) (hf : ∀ a, Q a → ScriptAll R (f a)) : ScriptAll R (p.andThen f) := by
  induction p with
  | done a => exact hf a hp
  | stmt s k ih => exact ⟨hp.1, fun id => ih id (hp.2 id)⟩

/-- the own row of a model. -/
theorem own_ok {t : Str} {p : Option Str} {plain : List (Str × Option (Out SerializeError Value))}
    {structs : List (Str × Option (List (Str × Out SerializeError Value)))} {refs : ActiveRefs}
    (hw : Writable (.mk t p plain structs refs)) {fks : List Field} (hn : fks.map (·.1) = Spec.refNames refs)
    (hs : ∀ f ∈ fks, Spec.Sendable f.2) :
    RowOk t (setPlain plain ++ setStructs structs ++ fks) ∧
      (setPlain plain ++ setStructs structs ++ fks).length = (Spec.setNames (.mk t p plain structs refs)).length := by
  rw [Writable] at hw
  obtain ⟨w1, w2, w3, w4, w5, w6, w7⟩ := hw
  obtain ⟨fs, a1, a2, a3⟩ := plain_set plain w5
  obtain ⟨gs, b1, b2, b3⟩ := struct_set structs w6
  rw [setPlain_eq a1, setStructs_eq b1]
  have hnames : (fs ++ gs ++ fks).map (·.1) = Spec.setNames (.mk t p plain structs refs) := by
    rw [List.map_append, List.map_append, a2, b2, hn, Spec.setNames]
  have hlen := congrArg List.length hnames
  rw [List.length_map] at hlen
  refine ⟨⟨w1, by rw [hnames]; exact w2, by rw [hnames]; exact w3, by rw [hlen]; exact w4, ?_⟩, hlen⟩
  intro f hf
  rcases List.mem_append.1 hf with hf | hf
  · rcases List.mem_append.1 hf with hf | hf
    · exact a3 f hf
    · exact b3 f hf
  · exact hs f hf

mutual
theorem insert_all (m : ActiveModel) (hw : Writable m) (hd : Spec.allDistinct m) :
    ScriptAll (fun _ => True) (insertScript m) := by
  match m with
  | .mk t p plain structs refs =>
    rw [insertScript]
    have hw' := hw
    rw [Writable] at hw'
    refine (refs_all refs hw'.2.2.2.2.2.2 hd.2).andThen fun fks h => ⟨(own_ok hw h.1 h.2).1, fun _ => trivial⟩

theorem refs_all (r : ActiveRefs) (hw : WritableRefs r) (hd : Spec.allDistinctRefs r) :
    ScriptAll (fun fks => fks.map (·.1) = Spec.refNames r ∧ ∀ f ∈ fks, Spec.Sendable f.2) (refsScript r) := by
  match r with
  | .nil => rw [refsScript]; exact ⟨rfl, by simp⟩
  | .unset f r => rw [refsScript]; exact refs_all r hw hd
  | .set f v r =>
    rw [WritableRefs] at hw
    rw [refsScript]
    refine (refs_all r hw.2 hd).andThen fun fks h => ⟨congrArg (f :: ·) h.1, ?_⟩
    intro g hg
    rcases List.mem_cons.1 hg with rfl | hg
    · exact hw.1
    · exact h.2 g hg
  | .insert f m r =>
    rw [WritableRefs] at hw
    have hm : Spec.ActiveModel.Distinct m := by
      match m, hd with
      | .mk .., hd => exact hd.1.1
    rw [refsScript]
    refine (insert_all m hw.1 hd.1).andThen fun id _ => (refs_all r hw.2 hd.2).andThen fun fks h =>
      ⟨congrArg (f :: ·) h.1, ?_⟩
    intro g hg
    rcases List.mem_cons.1 hg with rfl | hg
    · rw [(key_eq m hm id _).1 (ownKey_of m id)]
      exact key_sendable m hw.1 id
    · exact h.2 g hg
end

theorem job_all (j : StoreJob) (h : j.Fits) : ScriptAll (fun _ => True) j.script := by
  match j with
  | .insert m => exact insert_all m h.1 h.2
  | .update key id (.mk t p plain structs refs) =>
    obtain ⟨hw, hd, hk, hn, hid⟩ := h
    have hw' := hw
    rw [Writable] at hw'
    rw [StoreJob.script]
    refine (refs_all refs hw'.2.2.2.2.2.2 hd.2).andThen fun fks h => ?_
    split
    · trivial
    next he =>
      obtain ⟨k1, k2⟩ := own_ok hw h.1 h.2
      exact ⟨⟨k1, he, hk, by rw [k2]; exact hn, hid⟩, fun _ => trivial⟩

theorem jobs_all (js : List StoreJob) (h : ∀ j ∈ js, j.Fits) : ScriptAll (fun _ => True) (jobsScript js) := by
  induction js with
  | nil => trivial
  | cons j js ih =>
    rw [jobsScript]
    exact (job_all j (h j (List.mem_cons_self ..))).andThen fun id _ =>
      (ih fun k hk => h k (List.mem_cons_of_mem _ hk)).andThen fun ids _ => trivial

/-! ### one statement on a connection -/

theorem step_talk (S : SqlServer) (hS : Fair S) (st : SqlState) {s : StoreStep} (h : StepOk s) :
    ∃ cmds sent st', S.talk st cmds = some (st', sent, Spec.commands cmds) ∧
      (S.refuses st.rows (S.after st.rows s) = none → st'.rows = S.after st.rows s ∧
        ∀ (c : Conn) (r : List Rx), AtRest S c (rxOf sent ++ r) →
          ∃ q, runStep s c = (.ok (S.idOf st.rows s), { c with
            rx := r, tx := c.tx ++ Spec.commands cmds, seqId := q })) ∧
      (∀ e, S.refuses st.rows (S.after st.rows s) = some e → st'.rows = st.rows ∧
        ∀ (c : Conn) (r : List Rx), AtRest S c (rxOf sent ++ r) →
          ∃ q, runStep s c = (.err (refusal S e), { c with
            rx := r, tx := c.tx ++ Spec.commands cmds, seqId := q })) := by
  match s, h with
  | .row t fs, h =>
    obtain ⟨cmds, sent, st1, g1, g2, g3⟩ := row_talk S st h
    have hrun := run_insert S st.rows t fs
    refine ⟨cmds, sent, st1, g1, fun hr => ?_, fun e hr => ?_⟩
    · rw [show S.after st.rows (.row t fs) = withRow st.rows t (S.record st.rows t (meanings fs)) from rfl] at hr ⊢
      rw [hr] at hrun
      dsimp only at hrun
      refine ⟨by rw [g2, hrun], fun c r hc => ?_⟩
      obtain ⟨pr, c1, q, e1, e2, e3⟩ := g3 c r hc
      rw [hrun] at e3
      obtain ⟨q1, e4⟩ := execute_ok hS.message hc.track e2 e3
      refine ⟨q1, ?_⟩
      rw [insertText_eq] at e1
      rw [runStep, executeInsert, SM.bind_of_ok e1, SM.bind_of_ok e4]
      rfl
    · rw [show S.after st.rows (.row t fs) = withRow st.rows t (S.record st.rows t (meanings fs)) from rfl] at hr
      rw [hr] at hrun
      dsimp only at hrun
      refine ⟨by rw [g2, hrun], fun c r hc => ?_⟩
      obtain ⟨pr, c1, q, e1, e2, e3⟩ := g3 c r hc
      rw [hrun] at e3
      obtain ⟨q1, e4⟩ := execute_refused (hS.state _ _ _ hr) (hS.code _ _ _ hr) hc.p41 e2 e3
      refine ⟨q1, ?_⟩
      rw [insertText_eq] at e1
      rw [runStep, executeInsert, SM.bind_of_ok e1, SM.bind_of_err e4]
      rfl
  | .change t key id fs, h =>
    obtain ⟨h, hne, hk, hn, hid⟩ := h
    obtain ⟨cmds, sent, st1, g1, g2, g3⟩ := update_talk S st h hne hk hn hid
    have hrun := run_update S st.rows t key fs id
    refine ⟨cmds, sent, st1, g1, fun hr => ?_, fun e hr => ?_⟩
    · rw [show S.after st.rows (.change t key id fs) =
        S.updated st.rows t key (Spec.meaning id) (meanings fs) from rfl] at hr ⊢
      rw [hr] at hrun
      dsimp only at hrun
      refine ⟨by rw [g2, hrun], fun c r hc => ?_⟩
      obtain ⟨pr, c1, q, e1, e2, e3⟩ := g3 c r hc
      rw [hrun] at e3
      obtain ⟨q1, e4⟩ := execute_ok hS.message hc.track e2 e3
      refine ⟨q1, ?_⟩
      rw [runStep, SM.bind_of_ok e1, SM.bind_of_ok e4]
      rfl
    · rw [show S.after st.rows (.change t key id fs) =
        S.updated st.rows t key (Spec.meaning id) (meanings fs) from rfl] at hr
      rw [hr] at hrun
      dsimp only at hrun
      refine ⟨by rw [g2, hrun], fun c r hc => ?_⟩
      obtain ⟨pr, c1, q, e1, e2, e3⟩ := g3 c r hc
      rw [hrun] at e3
      obtain ⟨q1, e4⟩ := execute_refused (hS.state _ _ _ hr) (hS.code _ _ _ hr) hc.p41 e2 e3
      refine ⟨q1, ?_⟩
      rw [runStep, SM.bind_of_ok e1, SM.bind_of_err e4]
      rfl

/-! ### the connections together -/

theorem talkEach_append (S : SqlServer) (rows : Tables) (ss : Nat → Session) (a b : List (Nat × Bytes)) :
    S.talkEach rows ss (a ++ b) = (S.talkEach rows ss a).bind fun x => (S.talkEach x.1 x.2.1 b).map fun y =>
      (y.1, y.2.1, fun j => x.2.2 j ++ y.2.2 j) := by
  induction a generalizing rows ss with
  | nil =>
    rw [List.nil_append, Spec.SqlServer.talkEach]
    simp only [Option.bind_some, List.nil_append]
    cases S.talkEach rows ss b <;> rfl
  | cons m a ih =>
    obtain ⟨i, m⟩ := m
    rw [List.cons_append, Spec.SqlServer.talkEach, Spec.SqlServer.talkEach]
    cases S.react ⟨rows, (ss i).prepared, (ss i).long⟩ m with
    | none => rfl
    | some x =>
      simp only [Option.bind_eq_bind, Option.bind_some]
      rw [ih]
      cases S.talkEach x.1.rows (fun n => if n = i then ⟨x.1.prepared, x.1.long⟩ else ss n) a with
      | none => rfl
      | some y =>
        simp only [Option.bind_some]
        cases S.talkEach y.1 y.2.1 b with
        | none => rfl
        | some z =>
          simp only [Option.map_some, Option.bind_some, Option.some.injEq, Prod.mk.injEq, true_and]
          funext j
          by_cases hj : j = i
          · simp only [if_pos hj, List.append_assoc]
          · simp only [if_neg hj]

theorem talk_each (S : SqlServer) (i : Nat) {st st' : SqlState} {cmds : List Bytes} {sent received : Bytes}
    (h : S.talk st cmds = some (st', sent, received)) (ss : Nat → Session)
    (hi : ss i = ⟨st.prepared, st.long⟩) :
    S.talkEach st.rows ss (cmds.map fun m => (i, m)) = some (st'.rows,
      (fun n => if n = i then ⟨st'.prepared, st'.long⟩ else ss n), fun j => if j = i then sent else []) := by
  induction cmds generalizing st ss sent received with
  | nil =>
    cases h
    rw [List.map_nil, Spec.SqlServer.talkEach]
    simp only [Option.some.injEq, Prod.mk.injEq, true_and]
    refine ⟨?_, by funext j; simp⟩
    funext n
    by_cases hn : n = i
    · rw [if_pos hn, hn, hi]
    · rw [if_neg hn]
  | cons m cmds ih =>
    rw [Spec.SqlServer.talk] at h
    rw [List.map_cons, Spec.SqlServer.talkEach, hi]
    cases hr : S.react st m with
    | none => rw [hr] at h; cases h
    | some x =>
      rw [hr] at h
      simp only [Option.bind_eq_bind, Option.bind_some] at h ⊢
      cases ht : S.talk x.1 cmds with
      | none => rw [ht] at h; cases h
      | some y =>
        rw [ht] at h
        obtain ⟨st2, sent2, rec2⟩ := y
        simp only [Option.bind_some, Option.some.injEq, Prod.mk.injEq] at h
        obtain ⟨rfl, rfl, _⟩ := h
        rw [ih ht _ (by rw [if_pos rfl])]
        simp only [Option.bind_some, Option.some.injEq, Prod.mk.injEq, true_and]
        refine ⟨?_, ?_⟩
        · funext n
          by_cases hn : n = i
          · rw [if_pos hn, if_pos hn]
          · rw [if_neg hn, if_neg hn, if_neg hn]
        · funext j
          by_cases hj : j = i
          · rw [if_pos hj, if_pos hj, if_pos hj]
          · rw [if_neg hj, if_neg hj, if_neg hj]

theorem cmdsBy_append (i : Nat) (a b : List (Nat × Bytes)) :
    Spec.cmdsBy i (a ++ b) = Spec.cmdsBy i a ++ Spec.cmdsBy i b := List.filterMap_append ..

theorem cmdsBy_own (i : Nat) (cmds : List Bytes) : Spec.cmdsBy i (cmds.map fun m => (i, m)) = cmds := by
  unfold Spec.cmdsBy
  rw [List.filterMap_map]
  simp

theorem cmdsBy_other {i j : Nat} (h : j ≠ i) (cmds : List Bytes) :
    Spec.cmdsBy j (cmds.map fun m => (i, m)) = [] := by
  unfold Spec.cmdsBy
  rw [List.filterMap_map]
  simp [h.symm]

/-! ### where a script is after some events -/

inductive RanBy {α : Type} : Script α → List StoreEvent → Script α → Prop
  | nil {p} : RanBy p [] p
  | row {r k h p} : RanBy (k r.id) h p → RanBy (.stmt (.row r.table r.fields) k) (.row r :: h) p
  | change {t key id fs k h p} : RanBy (k 0) h p → RanBy (.stmt (.change t key id fs) k) (.change t key id fs :: h) p

theorem RanBy.snoc {S : SqlServer} {α : Type} {p : Script α} {h : List StoreEvent} {s : StoreStep}
    {k : UInt64 → Script α} (hr : RanBy p h (.stmt s k)) (rows : Tables) :
    RanBy p (h ++ [S.event rows s]) (k (S.idOf rows s)) := by
  generalize hq : Script.stmt s k = q at hr
  induction hr with
  | nil =>
    subst hq
    match s with
    | .row t fs => exact RanBy.row (r := { table := t, fields := fs, id := _ }) .nil
    | .change .. => exact .change .nil
  | row _ ih => exact .row (ih hq)
  | change _ ih => exact .change (ih hq)

/-- along a script that goes on in two parts. -/
theorem RanBy.split {α β : Type} {p : Script α} {f : α → Script β} {h : List StoreEvent} {q : Script β}
    (hr : RanBy (p.andThen f) h q) :
    (∃ s k, RanBy p h (.stmt s k) ∧ q = (Script.stmt s k).andThen f) ∨
    (∃ a h1 h2, h = h1 ++ h2 ∧ RanBy p h1 (.done a) ∧ RanBy (f a) h2 q) := by
  induction h generalizing p with
  | nil =>
    generalize hz : p.andThen f = z at hr
    cases hr
    subst hz
    match p with
    | .done a => exact .inr ⟨a, [], [], rfl, .nil, .nil⟩
    | .stmt s k => exact .inl ⟨s, k, .nil, rfl⟩
  | cons e h ih =>
    match p with
    | .done a => exact .inr ⟨a, [], e :: h, rfl, .nil, hr⟩
    | .stmt s k =>
      rw [Script.andThen] at hr
      cases hr with
      | row hr =>
        rcases ih hr with ⟨s', k', h1, h2⟩ | ⟨a, h1, h2, rfl, h3, h4⟩
        · exact .inl ⟨s', k', .row h1, h2⟩
        · exact .inr ⟨a, _ :: h1, h2, rfl, .row h3, h4⟩
      | change hr =>
        rcases ih hr with ⟨s', k', h1, h2⟩ | ⟨a, h1, h2, rfl, h3, h4⟩
        · exact .inl ⟨s', k', .change h1, h2⟩
        · exact .inr ⟨a, _ :: h1, h2, rfl, .change h3, h4⟩

theorem RanBy.split_done {α β : Type} {p : Script α} {f : α → Script β} {h : List StoreEvent} {b : β}
    (hr : RanBy (p.andThen f) h (.done b)) :
    ∃ a h1 h2, h = h1 ++ h2 ∧ RanBy p h1 (.done a) ∧ RanBy (f a) h2 (.done b) := by
  rcases hr.split with ⟨s, k, _, h⟩ | h
  · cases h
  · exact h

theorem RanBy.split_stmt {α β : Type} {p : Script α} {f : α → Script β} {h : List StoreEvent} {s : StoreStep}
    {k : UInt64 → Script β} (hr : RanBy (p.andThen f) h (.stmt s k)) :
    (∃ k', RanBy p h (.stmt s k')) ∨
    (∃ a h1 h2, h = h1 ++ h2 ∧ RanBy p h1 (.done a) ∧ RanBy (f a) h2 (.stmt s k)) := by
  rcases hr.split with ⟨s', k', h1, h⟩ | h
  · cases h
    exact .inl ⟨k', h1⟩
  · exact .inr h

theorem ran_done {α : Type} {a : α} {h : List StoreEvent} {q : Script α} (hr : RanBy (.done a) h q) :
    h = [] ∧ q = .done a := by
  cases hr
  exact ⟨rfl, rfl⟩

theorem ran_last {α : Type} {t : Str} {fs : List Field} {f : UInt64 → α} {h : List StoreEvent} {a : α}
    (hr : RanBy (.stmt (.row t fs) fun id => .done (f id)) h (.done a)) :
    ∃ id, h = [.row { table := t, fields := fs, id := id }] ∧ a = f id := by
  generalize hs : Script.stmt (.row t fs) (fun id => Script.done (f id)) = p at hr
  cases hr with
  | nil => cases hs
  | @row r k h p hr =>
    cases hs
    obtain ⟨rfl, h⟩ := ran_done hr
    cases h
    exact ⟨r.id, rfl, rfl⟩
  | change => cases hs

theorem ran_next {α : Type} {s s' : StoreStep} {f : UInt64 → α} {h : List StoreEvent} {k : UInt64 → Script α}
    (hr : RanBy (.stmt s fun id => .done (f id)) h (.stmt s' k)) : h = [] ∧ s' = s := by
  generalize hs : Script.stmt s (fun id => Script.done (f id)) = p at hr
  generalize hq : Script.stmt s' k = q at hr
  cases hr with
  | nil => subst hs; cases hq; exact ⟨rfl, rfl⟩
  | row hr => cases hs; cases (ran_done hr).2; cases hq
  | change hr => cases hs; cases (ran_done hr).2; cases hq

theorem ran_change {α : Type} {t key : Str} {id : Value} {fs : List Field} {b a : α} {h : List StoreEvent}
    (hr : RanBy (.stmt (.change t key id fs) fun _ => .done b) h (.done a)) :
    h = [.change t key id fs] ∧ a = b := by
  generalize hs : Script.stmt (.change t key id fs) (fun _ => Script.done b) = p at hr
  cases hr with
  | nil => cases hs
  | row => cases hs
  | change hr =>
    cases hs
    obtain ⟨rfl, h⟩ := ran_done hr
    cases h
    exact ⟨rfl, rfl⟩

mutual
theorem insert_ran (m : ActiveModel) (hw : Writable m) :
    (∀ h id, RanBy (insertScript m) h (.done id) → ∃ log, h = log.map .row ∧ Spec.Inserted m log id) ∧
    (∀ h s k, RanBy (insertScript m) h (.stmt s k) →
      ∃ log t fs, h = log.map .row ∧ s = .row t fs ∧ Spec.Begun m log (.ok (t, fs))) := by
  match m with
  | .mk t p plain structs refs =>
    rw [Writable] at hw
    obtain ⟨w1, w2, w3, w4, w5, w6, w7⟩ := hw
    obtain ⟨fs, a1, _⟩ := plain_set plain w5
    obtain ⟨gs, b1, _⟩ := struct_set structs w6
    obtain ⟨r1, r2⟩ := refs_ran refs w7
    rw [insertScript, setPlain_eq a1, setStructs_eq b1]
    constructor
    · intro h id hr
      obtain ⟨fks, h1, h2, rfl, k1, k2⟩ := hr.split_done
      obtain ⟨log, rfl, hl⟩ := r1 _ _ k1
      obtain ⟨id', rfl, rfl⟩ := ran_last k2
      exact ⟨log ++ [_], by rw [List.map_append]; rfl, .mk a1 b1 hl⟩
    · intro h s k hr
      rcases hr.split_stmt with ⟨k', h1⟩ | ⟨fks, h1, h2, rfl, k1, k2⟩
      · obtain ⟨log, t', fs', rfl, rfl, hb⟩ := r2 _ _ _ h1
        exact ⟨log, t', fs', rfl, rfl, .refs a1 b1 hb⟩
      · obtain ⟨log, rfl, hl⟩ := r1 _ _ k1
        obtain ⟨rfl, rfl⟩ := ran_next k2
        exact ⟨log, _, _, by rw [List.append_nil], rfl, .own a1 b1 hl⟩

theorem refs_ran (r : ActiveRefs) (hw : WritableRefs r) :
    (∀ h fks, RanBy (refsScript r) h (.done fks) → ∃ log, h = log.map .row ∧ Spec.Referred r log fks) ∧
    (∀ h s k, RanBy (refsScript r) h (.stmt s k) →
      ∃ log t fs, h = log.map .row ∧ s = .row t fs ∧ Spec.BegunRefs r log (.ok (t, fs))) := by
  match r with
  | .nil =>
    rw [refsScript]
    constructor
    · intro h fks hr
      obtain ⟨rfl, hr⟩ := ran_done hr
      cases hr
      exact ⟨[], rfl, .nil⟩
    · intro h s k hr
      cases (ran_done hr).2
  | .unset f r =>
    rw [refsScript]
    obtain ⟨r1, r2⟩ := refs_ran r hw
    constructor
    · intro h fks hr
      obtain ⟨log, e, hl⟩ := r1 h fks hr
      exact ⟨log, e, .unset hl⟩
    · intro h s k hr
      obtain ⟨log, t, fs, e, e', hl⟩ := r2 h s k hr
      exact ⟨log, t, fs, e, e', .unset hl⟩
  | .set f v r =>
    rw [WritableRefs] at hw
    rw [refsScript]
    obtain ⟨r1, r2⟩ := refs_ran r hw.2
    constructor
    · intro h fks hr
      obtain ⟨fks', h1, h2, rfl, k1, k2⟩ := hr.split_done
      obtain ⟨log, rfl, hl⟩ := r1 _ _ k1
      obtain ⟨rfl, e⟩ := ran_done k2
      cases e
      exact ⟨log, by rw [List.append_nil], .set hl⟩
    · intro h s k hr
      rcases hr.split_stmt with ⟨k', h1⟩ | ⟨fks, h1, h2, rfl, k1, k2⟩
      · obtain ⟨log, t, fs, e, e', hl⟩ := r2 _ _ _ h1
        exact ⟨log, t, fs, e, e', .set hl⟩
      · cases (ran_done k2).2
  | .insert f m r =>
    rw [WritableRefs] at hw
    rw [refsScript]
    obtain ⟨r1, r2⟩ := refs_ran r hw.2
    obtain ⟨m1, m2⟩ := insert_ran m hw.1
    constructor
    · intro h fks hr
      obtain ⟨id, h1, h2, rfl, k1, k2⟩ := hr.split_done
      obtain ⟨log, rfl, hl⟩ := m1 _ _ k1
      obtain ⟨fks', h3, h4, rfl, k3, k4⟩ := k2.split_done
      obtain ⟨log', rfl, hl'⟩ := r1 _ _ k3
      obtain ⟨rfl, e⟩ := ran_done k4
      cases e
      exact ⟨log ++ log', by rw [List.append_nil, List.map_append], .insert hl (ownKey_of m id) hl'⟩
    · intro h s k hr
      rcases hr.split_stmt with ⟨k', h1⟩ | ⟨id, h1, h2, rfl, k1, k2⟩
      · obtain ⟨log, t, fs, e, e', hl⟩ := m2 _ _ _ h1
        exact ⟨log, t, fs, e, e', .inside hl⟩
      · obtain ⟨log, rfl, hl⟩ := m1 _ _ k1
        rcases k2.split_stmt with ⟨k', h3⟩ | ⟨fks, h3, h4, rfl, k3, k4⟩
        · obtain ⟨log', t, fs, rfl, e', hl'⟩ := r2 _ _ _ h3
          exact ⟨log ++ log', t, fs, by rw [List.map_append], e', .after hl hl'⟩
        · cases (ran_done k4).2
end

theorem job_ran (j : StoreJob) (hf : j.Fits) :
    (∀ h id, RanBy j.script h (.done id) → Spec.JobDone j h id) ∧
    (∀ h s k, RanBy j.script h (.stmt s k) → Spec.JobAt j h s) := by
  match j with
  | .insert m =>
    obtain ⟨m1, m2⟩ := insert_ran m hf.1
    constructor
    · intro h id hr
      obtain ⟨log, rfl, hl⟩ := m1 _ _ hr
      exact .insert hl
    · intro h s k hr
      obtain ⟨log, t, fs, rfl, rfl, hl⟩ := m2 _ _ _ hr
      exact .insert hl
  | .update key id (.mk t p plain structs refs) =>
    have hw := hf.1
    rw [Writable] at hw
    obtain ⟨w1, w2, w3, w4, w5, w6, w7⟩ := hw
    obtain ⟨fs, a1, _⟩ := plain_set plain w5
    obtain ⟨gs, b1, _⟩ := struct_set structs w6
    obtain ⟨r1, r2⟩ := refs_ran refs w7
    rw [StoreJob.script, setPlain_eq a1, setStructs_eq b1]
    constructor
    · intro h id' hr
      obtain ⟨fks, h1, h2, rfl, k1, k2⟩ := hr.split_done
      obtain ⟨log, rfl, hl⟩ := r1 _ _ k1
      by_cases he : fs ++ gs ++ fks = []
      · rw [if_pos he] at k2
        obtain ⟨rfl, e⟩ := ran_done k2
        cases e
        have he1 := List.append_eq_nil_iff.1 he
        have he2 := List.append_eq_nil_iff.1 he1.1
        obtain rfl := he1.2
        obtain rfl := he2.1
        obtain rfl := he2.2
        rw [List.append_nil]
        exact .same a1 b1 hl
      · rw [if_neg he] at k2
        obtain ⟨rfl, rfl⟩ := ran_change k2
        exact .update a1 b1 hl he
    · intro h s k hr
      rcases hr.split_stmt with ⟨k', h1⟩ | ⟨fks, h1, h2, rfl, k1, k2⟩
      · obtain ⟨log, t', fs', rfl, rfl, hb⟩ := r2 _ _ _ h1
        exact .refs hb
      · obtain ⟨log, rfl, hl⟩ := r1 _ _ k1
        by_cases he : fs ++ gs ++ fks = []
        · rw [if_pos he] at k2
          cases (ran_done k2).2
        · rw [if_neg he] at k2
          obtain ⟨rfl, rfl⟩ := ran_next k2
          rw [List.append_nil]
          exact .update a1 b1 hl he

theorem jobs_ran (js : List StoreJob) (hf : ∀ j ∈ js, j.Fits) :
    (∀ h ids, RanBy (jobsScript js) h (.done ids) → Spec.JobsDone js h ids) ∧
    (∀ h s k, RanBy (jobsScript js) h (.stmt s k) → Spec.JobsAt js h s) := by
  induction js with
  | nil =>
    constructor
    · intro h ids hr
      obtain ⟨rfl, e⟩ := ran_done hr
      cases e
      exact .nil
    · intro h s k hr
      cases (ran_done hr).2
  | cons j js ih =>
    obtain ⟨i1, i2⟩ := ih fun k hk => hf k (List.mem_cons_of_mem _ hk)
    obtain ⟨j1, j2⟩ := job_ran j (hf j (List.mem_cons_self ..))
    rw [jobsScript]
    constructor
    · intro h ids hr
      obtain ⟨id, h1, h2, rfl, k1, k2⟩ := hr.split_done
      obtain ⟨ids', h3, h4, rfl, k3, k4⟩ := k2.split_done
      obtain ⟨rfl, e⟩ := ran_done k4
      cases e
      rw [List.append_nil]
      exact .cons (j1 _ _ k1) (i1 _ _ k3)
    · intro h s k hr
      rcases hr.split_stmt with ⟨k', h1⟩ | ⟨id, h1, h2, rfl, k1, k2⟩
      · exact .here (j2 _ _ _ h1)
      · rcases k2.split_stmt with ⟨k', h3⟩ | ⟨ids, h3, h4, rfl, k3, k4⟩
        · exact .later (j1 _ _ k1) (i2 _ _ _ h3)
        · cases (ran_done k4).2

/-! ### how many statements -/

/-- at most so many statements, whatever the ids are. -/
def Within {α : Type} : Nat → Script α → Prop
  | _, .done _ => True
  | 0, .stmt _ _ => False
  | n + 1, .stmt _ k => ∀ id, Within n (k id)

theorem Within.mono {α : Type} {p : Script α} {n m : Nat} (h : Within n p) (hm : n ≤ m) : Within m p := by
  induction p generalizing n m with
  | done a => cases m <;> trivial
  | stmt s k ih =>
    match n, m, h, hm with
    | n + 1, m + 1, h, hm => exact fun id => ih id (h id) (by omega)

theorem Within.andThen {α β : Type} {p : Script α} {f : α → Script β} {n m : Nat} (h : Within n p)
    (hf : ∀ a, Within m (f a)) : Within (n + m) (p.andThen f) := by
  induction p generalizing n with
  | done a => exact (hf a).mono (by omega)
  | stmt s k ih =>
    match n, h with
    | n + 1, h =>
      rw [show n + 1 + m = (n + m) + 1 by omega]
      exact fun id => ih id (h id)

mutual
theorem insert_within (m : ActiveModel) : Within (Spec.models m) (insertScript m) := by
  match m with
  | .mk t p plain structs refs =>
    rw [insertScript, Spec.models]
    exact (refs_within refs).andThen fun fks _ => trivial

theorem refs_within (r : ActiveRefs) : Within (Spec.refsModels r) (refsScript r) := by
  match r with
  | .nil => rw [refsScript, Spec.refsModels]; trivial
  | .unset f r => rw [refsScript, Spec.refsModels]; exact refs_within r
  | .set f v r =>
    rw [refsScript, Spec.refsModels]
    exact (refs_within r).andThen (m := 0) fun _ => trivial
  | .insert f m r =>
    rw [refsScript, Spec.refsModels]
    exact (insert_within m).andThen fun _ => (refs_within r).andThen (m := 0) fun _ => trivial
end

theorem job_within (j : StoreJob) : Within (Spec.jobsModels [j]) j.script := by
  match j with
  | .insert m => exact insert_within m
  | .update key id (.mk t p plain structs refs) =>
    rw [StoreJob.script]
    show Within (Spec.models (.mk t p plain structs refs)) _
    rw [Spec.models]
    refine (refs_within refs).andThen fun fks => ?_
    split
    · trivial
    · exact fun _ => trivial

theorem jobs_within (js : List StoreJob) : Within (Spec.jobsModels js) (jobsScript js) := by
  induction js with
  | nil => trivial
  | cons j js ih =>
    rw [jobsScript]
    have : Spec.jobsModels (j :: js) = Spec.jobsModels [j] + Spec.jobsModels js := by
      simp [Spec.jobsModels]
    rw [this]
    exact (job_within j).andThen fun _ => ih.andThen (m := 0) fun _ => trivial

end Verif

import Verif.Proofs.SqlServer
import Verif.Props.C12_Iteration
import Verif.Props.C52_ActiveModel

/-!
# C66 — a server with tables stores exactly the rows of an active model

`Spec.SqlServer` reads the bytes of the commands, executes the statements on its tables and answers.
The conversation of the connector with it: both sides together.
-/

namespace Verif

open Spec (SqlServer SqlState Prep Tables Row Field Writable WritableRefs)
open Spec.SqlServer (Stores meanings withRow)

/-- a row whose statement can be written. -/
structure RowOk (t : Str) (fields : List Field) : Prop where
  table : '`' ∉ t
  names : ∀ n ∈ fields.map (·.1), '`' ∉ n
  nodup : (fields.map (·.1)).Nodup
  few : fields.length < 2 ^ 16
  sendable : ∀ f ∈ fields, Spec.Sendable f.2

theorem RowOk.bytes {t : Str} {fields : List Field} (h : RowOk t fields) (b : Bytes)
    (hb : .bytes b ∈ fields.map (·.2)) : b.length < 2 ^ 64 := by
  obtain ⟨f, hf, he⟩ := List.mem_map.1 hb
  exact h.sendable f hf b he

theorem zip_meanings (fields : List Field) :
    (fields.map (·.1)).zip ((fields.map (·.2)).map Spec.meaning) = meanings fields := by
  induction fields with
  | nil => rfl
  | cons f fs ih => exact congrArg ((f.1, Spec.meaning f.2) :: ·) ih

/-- the statement of a row. -/
theorem row_prep {t : Str} {fields : List Field} (h : RowOk t fields) :
    ∃ ts, Spec.tokens (insertText t (fields.map (·.1))) = some ts ∧
      Spec.parsePrep ts = some (.insert { table := t, columns := fields.map (·.1), marks := fields.length }) ∧
      Spec.placeholders ts = fields.length := by
  obtain ⟨ts, h1, h2, h3⟩ := insert_reads fields t h.table fun v hv => h.names _ (List.mem_map.2 ⟨v, hv, rfl⟩)
  refine ⟨ts, by rw [insertText_eq]; exact h1, ?_, h3⟩
  rw [Spec.parsePrep, h2]

theorem row_talk (S : SqlServer) (st : SqlState) {t : Str} {fields : List Field} (h : RowOk t fields) :
    ∃ cmds sent st', S.talk st cmds = some (st', sent, Spec.commands cmds) ∧
      st'.rows = (S.run st.rows (.insert { table := t, columns := fields.map (·.1), marks := fields.length })
        ((fields.map (·.2)).map Spec.meaning)).1 ∧
      ∀ (c : Conn) (r : List Rx), AtRest S c (rxOf sent ++ r) →
        ∃ pr c1 q, prepareStatement (insertText t (fields.map (·.1))) c = (.ok pr, c1) ∧
          pr.params = (fields.map (·.2)).length ∧
          sendExecute pr.id (fields.map (·.2)) c1 = (.ok (), { c with
            rx := rxOf (Spec.frames q (S.run st.rows
              (.insert { table := t, columns := fields.map (·.1), marks := fields.length })
              ((fields.map (·.2)).map Spec.meaning)).2) ++ r
            tx := c.tx ++ Spec.commands cmds
            seqId := q }) := by
  obtain ⟨ts, h1, h2, h3⟩ := row_prep h
  obtain ⟨cmds, sent, st', g1, g2, g3⟩ := statement_talk S st _ ts _ (fields.map (·.2)) h1 h2 h3.symm h.nodup
    (by rw [List.length_map]; rfl) h.few h.bytes
  exact ⟨cmds, sent, st', g1, g2, fun c r hc => g3 c r hc.pending hc.faults hc.rx⟩

theorem run_insert (S : SqlServer) (rows : Tables) (t : Str) (fields : List Field) :
    S.run rows (.insert { table := t, columns := fields.map (·.1), marks := fields.length })
        ((fields.map (·.2)).map Spec.meaning) =
      match S.refuses rows (withRow rows t (S.record rows t (meanings fields))) with
      | some e => (rows, S.errAnswer e)
      | none => (withRow rows t (S.record rows t (meanings fields)),
          S.okAnswer 1 (S.insertId rows t (meanings fields))) := by
  rw [Spec.SqlServer.run]
  dsimp only
  rw [zip_meanings]
  cases S.refuses rows (withRow rows t (S.record rows t (meanings fields))) <;> rfl

/-- the server is well-behaved: messages fit, errors have a state of five bytes, and no error looks like
a progress report. -/
structure Fair (S : SqlServer) : Prop where
  message : (utf8 S.message).length < 2 ^ 64
  state : ∀ rows rows' e, S.refuses rows rows' = some e → (utf8 e.state).length = 5
  code : ∀ rows rows' e, S.refuses rows rows' = some e → e.code ≠ 0xFFFF

/-- the error the caller gets. -/
def refusal (S : SqlServer) (e : Spec.SqlError) : Error :=
  .server (.error e.code (if S.protocol41 then some (utf8 e.state) else none) e.msg)

theorem log_talk (S : SqlServer) (hS : Fair S) {rows rows' : Tables} {log : List Row}
    (hs : Stores S rows log rows') (hok : ∀ row ∈ log, RowOk row.table row.fields) :
    ∀ st : SqlState, st.rows = rows →
    ∃ cmds sent st', S.talk st cmds = some (st', sent, Spec.commands cmds) ∧ st'.rows = rows' ∧
      ∀ (c : Conn) (r : List Rx), AtRest S c (rxOf sent ++ r) →
        ∃ q, Spec.Executed insertText c log { c with
          rx := r, tx := c.tx ++ Spec.commands cmds, seqId := q } := by
  induction hs with
  | @nil rows =>
    intro st hst
    refine ⟨[], [], st, rfl, hst, fun c r hc => ⟨c.seqId, ?_⟩⟩
    have : ({ c with rx := r, tx := c.tx ++ Spec.commands [], seqId := c.seqId } : Conn) = c := by
      have h := hc.rx
      rw [rxOf_nil, List.nil_append] at h
      simp [Spec.commands, ← h]
    rw [this]
    exact .nil
  | @cons rows row log rows' hr hid _ ih =>
    intro st hst
    subst hst
    obtain ⟨cmds, sent, st1, g1, g2, g3⟩ := row_talk S st (hok row (List.mem_cons_self ..))
    have hrun := run_insert S st.rows row.table row.fields
    rw [hr] at hrun
    dsimp only at hrun
    obtain ⟨cmds2, sent2, st2, k1, k2, k3⟩ := ih (fun w hw => hok w (List.mem_cons_of_mem _ hw)) st1
      (by rw [g2, hrun])
    refine ⟨cmds ++ cmds2, sent ++ sent2, st2, ?_, k2, fun c r hc => ?_⟩
    · rw [talk_append, g1, Option.bind_some, k1, Option.map_some, commands_append']
    · obtain ⟨pr, c1, q, e1, e2, e3⟩ := g3 c (rxOf sent2 ++ r)
        ⟨hc.pending, hc.faults, hc.track, hc.p41, by rw [hc.rx, rxOf_append, List.append_assoc]⟩
      rw [hrun] at e3
      obtain ⟨q1, e4⟩ := execute_ok hS.message hc.track e2 e3
      obtain ⟨q2, e5⟩ := k3 { c with
        rx := rxOf sent2 ++ r
        tx := c.tx ++ Spec.commands cmds
        seqId := q1 } r (hc.next _ _ _)
      refine ⟨q2, .cons e1 e4 (by rw [hid]; rfl) ?_⟩
      rw [commands_append', ← List.append_assoc]
      exact e5

/-- a row that is refused. -/
theorem refused_talk (S : SqlServer) (hS : Fair S) (st : SqlState) {t : Str} {fields : List Field}
    (h : RowOk t fields) {e : Spec.SqlError}
    (hr : S.refuses st.rows (withRow st.rows t (S.record st.rows t (meanings fields))) = some e) :
    ∃ cmds sent st', S.talk st cmds = some (st', sent, Spec.commands cmds) ∧ st'.rows = st.rows ∧
      ∀ (c : Conn) (r : List Rx), AtRest S c (rxOf sent ++ r) →
        ∃ q, Spec.Failed insertText c (.ok (t, fields)) (refusal S e) { c with
          rx := r, tx := c.tx ++ Spec.commands cmds, seqId := q } := by
  obtain ⟨cmds, sent, st1, g1, g2, g3⟩ := row_talk S st h
  have hrun := run_insert S st.rows t fields
  rw [hr] at hrun
  dsimp only at hrun
  refine ⟨cmds, sent, st1, g1, by rw [g2, hrun], fun c r hc => ?_⟩
  obtain ⟨pr, c1, q, e1, e2, e3⟩ := g3 c r hc
  rw [hrun] at e3
  obtain ⟨q1, e4⟩ := execute_refused (hS.state _ _ _ hr) (hS.code _ _ _ hr) hc.p41 e2 e3
  exact ⟨q1, .execute e1 e4⟩

/-! ### the rows of a tree -/

theorem plain_set (plain : List (Str × Option (Out SerializeError Value)))
    (h : ∀ f ∈ plain, ∀ x, f.2 = some x → Spec.SendableOut x) :
    ∃ fs, Spec.PlainSet plain fs ∧ fs.map (·.1) = (plain.filterMap fun f => f.2.map fun _ => f.1) ∧
      ∀ f ∈ fs, Spec.Sendable f.2 := by
  induction plain with
  | nil => exact ⟨[], .nil, rfl, by simp⟩
  | cons f plain ih =>
    obtain ⟨fs, h1, h2, h3⟩ := ih fun g hg => h g (List.mem_cons_of_mem _ hg)
    obtain ⟨n, x⟩ := f
    cases x with
    | none => exact ⟨fs, .unset h1, by simpa using h2, h3⟩
    | some x =>
      obtain ⟨v, rfl, hv⟩ := h (n, some x) (List.mem_cons_self ..) x rfl
      refine ⟨(n, v) :: fs, .set h1, by simp [h2], ?_⟩
      intro f hf
      rcases List.mem_cons.1 hf with rfl | hf
      · exact hv
      · exact h3 f hf

theorem members_set (ms : List (Str × Out SerializeError Value)) (h : ∀ x ∈ ms, Spec.SendableOut x.2) :
    ∃ vs : List (Str × Value), ms = vs.map (fun x => (x.1, .ok x.2)) ∧ ∀ x ∈ vs, Spec.Sendable x.2 := by
  induction ms with
  | nil => exact ⟨[], rfl, by simp⟩
  | cons m ms ih =>
    obtain ⟨vs, h1, h2⟩ := ih fun x hx => h x (List.mem_cons_of_mem _ hx)
    obtain ⟨v, hv, hs⟩ := h m (List.mem_cons_self ..)
    refine ⟨(m.1, v) :: vs, by rw [List.map_cons, ← h1, ← hv], ?_⟩
    intro x hx
    rcases List.mem_cons.1 hx with rfl | hx
    · exact hs
    · exact h2 x hx

theorem struct_set (structs : List (Str × Option (List (Str × Out SerializeError Value))))
    (h : ∀ s ∈ structs, ∀ ms, s.2 = some ms → ∀ x ∈ ms, Spec.SendableOut x.2) :
    ∃ gs, Spec.StructSet structs gs ∧
      gs.map (·.1) = (structs.flatMap fun s => (s.2.getD []).map fun x => s.1 ++ '_' :: x.1) ∧
      ∀ f ∈ gs, Spec.Sendable f.2 := by
  induction structs with
  | nil => exact ⟨[], .nil, rfl, by simp⟩
  | cons s structs ih =>
    obtain ⟨gs, h1, h2, h3⟩ := ih fun g hg => h g (List.mem_cons_of_mem _ hg)
    obtain ⟨n, x⟩ := s
    cases x with
    | none => exact ⟨gs, .unset h1, by simpa using h2, h3⟩
    | some ms =>
      obtain ⟨vs, rfl, hv⟩ := members_set ms (h (n, some ms) (List.mem_cons_self ..) ms rfl)
      refine ⟨_, .set vs h1, by simp [h2, Function.comp_def], ?_⟩
      intro f hf
      rcases List.mem_append.1 hf with hf | hf
      · obtain ⟨x, hx, rfl⟩ := List.mem_map.1 hf
        exact hv x hx
      · exact h3 f hf

theorem stores_append {S : SqlServer} {rows rows1 rows2 : Tables} {a b : List Row}
    (h1 : Stores S rows a rows1) (h2 : Stores S rows1 b rows2) : Stores S rows (a ++ b) rows2 := by
  induction h1 with
  | nil => exact h2
  | cons h3 h4 _ ih => exact .cons h3 h4 (ih h2)

theorem key_sendable (m : ActiveModel) (hw : Writable m) (id : UInt64) :
    Spec.Sendable (m.primaryValue.getD (.ulong id)) := by
  match m, hw with
  | .mk t none plain structs refs, _ =>
    intro b hb
    cases hb
  | .mk t (some p) plain structs refs, hw =>
    rw [Writable] at hw
    have h := hw.2.2.2.2.1
    rw [ActiveModel.primaryValue]
    match hf : plain.find? (·.1 = p) with
    | none => rw [hf]; intro b hb; cases hb
    | some (q, none) => rw [hf]; intro b hb; cases hb
    | some (q, some (.err e)) => rw [hf]; intro b hb; cases hb
    | some (q, some .panic) => rw [hf]; intro b hb; cases hb
    | some (q, some (.ok v)) =>
      rw [hf]
      obtain ⟨v', hv, hs⟩ := h _ (List.mem_of_find?_eq_some hf) _ rfl
      cases hv
      exact hs

/-- everything of the tree is stored, or the first row that is refused ends it. -/
inductive Outcome (S : SqlServer) (rows : Tables) (done : List Row → α → Prop)
    (begun : List Row → Except SerializeError (Str × List Field) → Prop) : Prop
  | stored (log : List Row) (x : α) (rows' : Tables) : done log x → Stores S rows log rows' →
      (∀ row ∈ log, RowOk row.table row.fields) → Outcome S rows done begun
  | refused (log : List Row) (t : Str) (fs : List Field) (rows1 : Tables) (e : Spec.SqlError) :
      begun log (.ok (t, fs)) → Stores S rows log rows1 →
      (∀ row ∈ log, RowOk row.table row.fields) → RowOk t fs →
      S.refuses rows1 (withRow rows1 t (S.record rows1 t (meanings fs))) = some e → Outcome S rows done begun

mutual
theorem insert_outcome (S : SqlServer) (m : ActiveModel) (hw : Writable m) (hd : Spec.allDistinct m)
    (rows : Tables) : Outcome S rows (Spec.Inserted m) (Spec.Begun m) := by
  match m with
  | .mk t p plain structs refs =>
    rw [Writable] at hw
    obtain ⟨w1, w2, w3, w4, w5, w6, w7⟩ := hw
    obtain ⟨fs, a1, a2, a3⟩ := plain_set plain w5
    obtain ⟨gs, b1, b2, b3⟩ := struct_set structs w6
    cases refs_outcome S refs w7 hd.2 rows with
    | refused log t' fs' rows1 e h1 h2 h3 h4 h5 => exact .refused log t' fs' rows1 e (.refs a1 b1 h1) h2 h3 h4 h5
    | stored log x rows1 h1 h2 h3 =>
      obtain ⟨h1, hn, hs⟩ := h1
      have hnames : (fs ++ gs ++ x).map (·.1) = Spec.setNames (.mk t p plain structs refs) := by
        rw [List.map_append, List.map_append, a2, b2, hn, Spec.setNames]
      have hrow : RowOk t (fs ++ gs ++ x) := by
        refine ⟨w1, by rw [hnames]; exact w2, by rw [hnames]; exact w3, ?_, ?_⟩
        · have := congrArg List.length hnames
          rw [List.length_map] at this
          rw [this]; exact w4
        · intro f hf
          rcases List.mem_append.1 hf with hf | hf
          · rcases List.mem_append.1 hf with hf | hf
            · exact a3 f hf
            · exact b3 f hf
          · exact hs f hf
      cases he : S.refuses rows1 (withRow rows1 t (S.record rows1 t (meanings (fs ++ gs ++ x)))) with
      | some e => exact .refused log t _ rows1 e (.own a1 b1 h1) h2 h3 hrow he
      | none =>
        refine .stored _ (S.insertId rows1 t (meanings (fs ++ gs ++ x))) _ (.mk a1 b1 h1)
          (stores_append h2 (.cons he rfl .nil)) ?_
        intro row hr
        rcases List.mem_append.1 hr with hr | hr
        · exact h3 row hr
        · cases List.mem_singleton.1 hr
          exact hrow

theorem refs_outcome (S : SqlServer) (r : ActiveRefs) (hw : WritableRefs r) (hd : Spec.allDistinctRefs r)
    (rows : Tables) :
    Outcome S rows (fun log fks => Spec.Referred r log fks ∧ fks.map (·.1) = Spec.refNames r ∧
      ∀ f ∈ fks, Spec.Sendable f.2) (Spec.BegunRefs r) := by
  match r with
  | .nil => exact .stored [] [] rows ⟨.nil, rfl, by simp⟩ .nil (by simp)
  | .unset f r =>
    cases refs_outcome S r hw hd rows with
    | refused log t' fs' rows1 e h1 h2 h3 h4 h5 => exact .refused log t' fs' rows1 e (.unset h1) h2 h3 h4 h5
    | stored log x rows1 h1 h2 h3 => exact .stored log x rows1 ⟨.unset h1.1, h1.2.1, h1.2.2⟩ h2 h3
  | .set f v r =>
    rw [WritableRefs] at hw
    cases refs_outcome S r hw.2 hd rows with
    | refused log t' fs' rows1 e h1 h2 h3 h4 h5 => exact .refused log t' fs' rows1 e (.set h1) h2 h3 h4 h5
    | stored log x rows1 h1 h2 h3 =>
      refine .stored log ((f, v) :: x) rows1 ⟨.set h1.1, congrArg (f :: ·) h1.2.1, ?_⟩ h2 h3
      intro g hg
      rcases List.mem_cons.1 hg with rfl | hg
      · exact hw.1
      · exact h1.2.2 g hg
  | .insert f m r =>
    rw [WritableRefs] at hw
    have hm : Spec.ActiveModel.Distinct m := by
      match m, hd with
      | .mk .., hd => exact hd.1.1
    cases insert_outcome S m hw.1 hd.1 rows with
    | refused log t' fs' rows1 e h1 h2 h3 h4 h5 => exact .refused log t' fs' rows1 e (.inside h1) h2 h3 h4 h5
    | stored log id rows1 h1 h2 h3 =>
      have hall : ∀ {log' : List Row}, (∀ row ∈ log', RowOk row.table row.fields) →
          ∀ row ∈ log ++ log', RowOk row.table row.fields := by
        intro log' h row hr
        rcases List.mem_append.1 hr with hr | hr
        · exact h3 row hr
        · exact h row hr
      cases refs_outcome S r hw.2 hd.2 rows1 with
      | refused log' t' fs' rows2 e k1 k2 k3 k4 k5 =>
        exact .refused (log ++ log') t' fs' rows2 e (.after h1 k1) (stores_append h2 k2) (hall k3) k4 k5
      | stored log' x rows2 k1 k2 k3 =>
        refine .stored (log ++ log') ((f, m.primaryValue.getD (.ulong id)) :: x) rows2
          ⟨.insert h1 ((key_eq m hm id _).2 rfl) k1.1, congrArg (f :: ·) k1.2.1, ?_⟩
          (stores_append h2 k2) (hall k3)
        intro g hg
        rcases List.mem_cons.1 hg with rfl | hg
        · exact key_sendable m hw.1 id
        · exact k1.2.2 g hg
end

/-! ### the theorem -/

/-- **C66**, inserting: there is a conversation with the server in which the connector sends exactly
the commands and reads exactly the answers, and after which the connection is at rest.  Either every row
of the tree is stored, the references first, with the keys the server generated in the columns of the
references, and the caller gets the id of the last; or the server refused a row: the rows before it are
stored, nothing after it, and the caller gets the server's error. -/
theorem C66_insert (S : SqlServer) (hS : Fair S) (st : SqlState) (m : ActiveModel) (hw : Writable m)
    (hd : Spec.allDistinct m) :
    ∃ cmds sent st', S.talk st cmds = some (st', sent, Spec.commands cmds) ∧
      ((∃ log id, Spec.Inserted m log id ∧ Stores S st.rows log st'.rows ∧
          ∀ (c : Conn) (r : List Rx), AtRest S c (rxOf sent ++ r) → ∃ q, m.insert c = (.ok id, { c with
            rx := r, tx := c.tx ++ Spec.commands cmds, seqId := q })) ∨
       (∃ log t fs e, Spec.Begun m log (.ok (t, fs)) ∧ Stores S st.rows log st'.rows ∧
          S.refuses st'.rows (withRow st'.rows t (S.record st'.rows t (meanings fs))) = some e ∧
          ∀ (c : Conn) (r : List Rx), AtRest S c (rxOf sent ++ r) → ∃ q,
            m.insert c = (.err (refusal S e), { c with
              rx := r, tx := c.tx ++ Spec.commands cmds, seqId := q }))) := by
  cases insert_outcome S m hw hd st.rows with
  | stored log id rows1 h1 h2 h3 =>
    obtain ⟨cmds, sent, st', g1, g2, g3⟩ := log_talk S hS h2 h3 st rfl
    subst g2
    refine ⟨cmds, sent, st', g1, .inl ⟨log, id, h1, h2, fun c r hc => ?_⟩⟩
    obtain ⟨q, h⟩ := g3 c r hc
    exact ⟨q, (insert_ok m hd c _ id).2 ⟨log, h1, h⟩⟩
  | refused log t fs rows1 e h1 h2 h3 h4 h5 =>
    obtain ⟨cmds, sent, st1, g1, g2, g3⟩ := log_talk S hS h2 h3 st rfl
    subst g2
    obtain ⟨cmds2, sent2, st2, k1, k2, k3⟩ := refused_talk S hS st1 h4 h5
    refine ⟨cmds ++ cmds2, sent ++ sent2, st2, ?_, .inr ⟨log, t, fs, e, h1, by rw [k2]; exact h2,
      by rw [k2]; exact h5, fun c r hc => ?_⟩⟩
    · rw [talk_append, g1, Option.bind_some, k1, Option.map_some, commands_append']
    · obtain ⟨q, h⟩ := g3 c (rxOf sent2 ++ r)
        ⟨hc.pending, hc.faults, hc.track, hc.p41, by rw [hc.rx, rxOf_append, List.append_assoc]⟩
      obtain ⟨q2, h'⟩ := k3 { c with
        rx := rxOf sent2 ++ r
        tx := c.tx ++ Spec.commands cmds
        seqId := q } r (hc.next _ _ _)
      refine ⟨q2, ?_⟩
      rw [commands_append', ← List.append_assoc]
      exact (insert_err m hd _ _ _).2 ⟨_, _, _, h1, h, h'⟩

/-! ### updating -/

theorem zip_meanings_key (fields : List Field) (id : Value) :
    (fields.map (·.1)).zip ((fields.map (·.2) ++ [id]).map Spec.meaning) = meanings fields := by
  induction fields with
  | nil => rfl
  | cons f fs ih => exact congrArg ((f.1, Spec.meaning f.2) :: ·) ih

/-- what an update of the row with this key makes of the tables. -/
def afterUpdate (S : SqlServer) (rows : Tables) (t key : Str) (id : Value) (fields : List Field) : Tables :=
  if fields = [] then rows else S.updated rows t key (Spec.meaning id) (meanings fields)

theorem parsePrep_update {ts : List Spec.Tok} {s : Spec.UpdateStmt} (h : Spec.parseUpdate ts = some s) :
    Spec.parsePrep ts = some (.update s) := by
  have hn : Spec.parseInsert ts = none := by
    match ts, h with
    | .word w1 :: .name t :: .word w2 :: r, h => rfl
  rw [Spec.parsePrep, hn, h]
  rfl

theorem update_talk (S : SqlServer) (st : SqlState) {t key : Str} {fields : List Field} {id : Value}
    (h : RowOk t fields) (hne : fields ≠ []) (hk : '`' ∉ key) (hn : fields.length + 1 < 2 ^ 16)
    (hid : Spec.Sendable id) :
    ∃ cmds sent st', S.talk st cmds = some (st', sent, Spec.commands cmds) ∧
      st'.rows = (S.run st.rows (.update { table := t, columns := fields.map (·.1), key := key })
        ((fields.map (·.2) ++ [id]).map Spec.meaning)).1 ∧
      ∀ (c : Conn) (r : List Rx), AtRest S c (rxOf sent ++ r) →
        ∃ pr c1 q, prepareStatement (intoUpdate fields t key) c = (.ok pr, c1) ∧
          pr.params = (fields.map (·.2) ++ [id]).length ∧
          sendExecute pr.id (fields.map (·.2) ++ [id]) c1 = (.ok (), { c with
            rx := rxOf (Spec.frames q (S.run st.rows
              (.update { table := t, columns := fields.map (·.1), key := key })
              ((fields.map (·.2) ++ [id]).map Spec.meaning)).2) ++ r
            tx := c.tx ++ Spec.commands cmds
            seqId := q }) := by
  obtain ⟨ts, h1, h2, h3⟩ := update_reads fields t key hne h.table hk
    fun v hv => h.names _ (List.mem_map.2 ⟨v, hv, rfl⟩)
  obtain ⟨cmds, sent, st', g1, g2, g3⟩ := statement_talk S st _ ts _ (fields.map (·.2) ++ [id]) h1
    (parsePrep_update h2) (by rw [h3]; simp [Spec.Prep.marks]) h.nodup
    (by simp [Spec.Prep.marks]) (by simpa [Spec.Prep.marks] using hn) (by
      intro b hb
      rcases List.mem_append.1 hb with hb | hb
      · exact h.bytes b hb
      · exact hid b (List.mem_singleton.1 hb).symm)
  exact ⟨cmds, sent, st', g1, g2, fun c r hc => g3 c r hc.pending hc.faults hc.rx⟩

/-- the answer to an update. -/
theorem run_update (S : SqlServer) (rows : Tables) (t key : Str) (fields : List Field) (id : Value) :
    S.run rows (.update { table := t, columns := fields.map (·.1), key := key })
        ((fields.map (·.2) ++ [id]).map Spec.meaning) =
      match S.refuses rows (S.updated rows t key (Spec.meaning id) (meanings fields)) with
      | some e => (rows, S.errAnswer e)
      | none => (S.updated rows t key (Spec.meaning id) (meanings fields),
          S.okAnswer (.ofNat ((rows t).countP fun r => S.eq (r key) (Spec.meaning id))) 0) := by
  have hl : (((fields.map (·.2) ++ [id]).map Spec.meaning).getLast?).getD .null = Spec.meaning id := by
    simp
  rw [Spec.SqlServer.run]
  dsimp only
  rw [zip_meanings_key, hl]
  cases S.refuses rows (S.updated rows t key (Spec.meaning id) (meanings fields)) <;> rfl

/-- **C66**, updating: the rows of the references are stored first, then exactly the set columns of the
rows with the given key are assigned — nothing is, and nothing is sent, if no column is set.  A refusal
of a reference or of the update ends it with the server's error. -/
theorem C66_update (S : SqlServer) (hS : Fair S) (st : SqlState) (id : Value) (key t : Str)
    (p : Option Str) (plain : List (Str × Option (Out SerializeError Value)))
    (structs : List (Str × Option (List (Str × Out SerializeError Value)))) (refs : ActiveRefs)
    (hw : Writable (.mk t p plain structs refs)) (hd : Spec.allDistinct (.mk t p plain structs refs))
    (hk : '`' ∉ key) (hn : (Spec.setNames (.mk t p plain structs refs)).length + 1 < 2 ^ 16)
    (hid : Spec.Sendable id) :
    ∃ cmds sent st', S.talk st cmds = some (st', sent, Spec.commands cmds) ∧
      ((∃ fs gs fks log rows1, Spec.PlainSet plain fs ∧ Spec.StructSet structs gs ∧
          Spec.Referred refs log fks ∧ Stores S st.rows log rows1 ∧
          st'.rows = afterUpdate S rows1 t key id (fs ++ gs ++ fks) ∧
          ∀ (c : Conn) (r : List Rx), AtRest S c (rxOf sent ++ r) → ∃ q,
            ActiveModel.update id key (.mk t p plain structs refs) c = (.ok (), { c with
              rx := r, tx := c.tx ++ Spec.commands cmds, seqId := q })) ∨
       (∃ log e, Stores S st.rows log st'.rows ∧
          ((∃ t' fs', Spec.BegunRefs refs log (.ok (t', fs')) ∧
              S.refuses st'.rows (withRow st'.rows t' (S.record st'.rows t' (meanings fs'))) = some e) ∨
           (∃ fs gs fks, Spec.PlainSet plain fs ∧ Spec.StructSet structs gs ∧ Spec.Referred refs log fks ∧
              S.refuses st'.rows (afterUpdate S st'.rows t key id (fs ++ gs ++ fks)) = some e)) ∧
          ∀ (c : Conn) (r : List Rx), AtRest S c (rxOf sent ++ r) → ∃ q,
            ActiveModel.update id key (.mk t p plain structs refs) c = (.err (refusal S e), { c with
              rx := r, tx := c.tx ++ Spec.commands cmds, seqId := q }))) := by
  rw [Writable] at hw
  obtain ⟨w1, w2, w3, w4, w5, w6, w7⟩ := hw
  obtain ⟨fs, a1, a2, a3⟩ := plain_set plain w5
  obtain ⟨gs, b1, b2, b3⟩ := struct_set structs w6
  have hvals : ∀ {fks log c c1}, Spec.Referred refs log fks → Spec.Executed insertText c log c1 →
      (ActiveModel.mk t p plain structs refs).intoValues c = (.ok (fs ++ gs ++ fks), c1) := by
    intro fks log c c1 h1 h2
    rw [ActiveModel.intoValues, SM.bind_of_ok ((plainValues_ok _ _ _ _).2 ⟨a1, rfl⟩),
      SM.bind_of_ok ((structValues_ok _ _ _ _).2 ⟨b1, rfl⟩),
      SM.bind_of_ok ((refs_ok refs hd.2 _ _ _).2 ⟨_, h1, h2⟩)]
    rfl
  cases refs_outcome S refs w7 hd.2 st.rows with
  | refused log t' fs' rows1 e h1 h2 h3 h4 h5 =>
    obtain ⟨cmds, sent, st1, g1, g2, g3⟩ := log_talk S hS h2 h3 st rfl
    subst g2
    obtain ⟨cmds2, sent2, st2, k1, k2, k3⟩ := refused_talk S hS st1 h4 h5
    refine ⟨cmds ++ cmds2, sent ++ sent2, st2, ?_, .inr ⟨log, e, by rw [k2]; exact h2,
      .inl ⟨t', fs', h1, by rw [k2]; exact h5⟩, fun c r hc => ?_⟩⟩
    · rw [talk_append, g1, Option.bind_some, k1, Option.map_some, commands_append']
    · obtain ⟨q, h⟩ := g3 c (rxOf sent2 ++ r)
        ⟨hc.pending, hc.faults, hc.track, hc.p41, by rw [hc.rx, rxOf_append, List.append_assoc]⟩
      obtain ⟨q2, h'⟩ := k3 { c with
        rx := rxOf sent2 ++ r
        tx := c.tx ++ Spec.commands cmds
        seqId := q } r (hc.next _ _ _)
      refine ⟨q2, ?_⟩
      rw [commands_append', ← List.append_assoc]
      unfold ActiveModel.update
      refine SM.bind_of_err ?_
      rw [ActiveModel.intoValues, SM.bind_of_ok ((plainValues_ok _ _ _ _).2 ⟨a1, rfl⟩),
        SM.bind_of_ok ((structValues_ok _ _ _ _).2 ⟨b1, rfl⟩)]
      exact SM.bind_of_err (refs_failed refs hd.2 h1 h h')
  | stored log x rows1 h1 h2 h3 =>
    obtain ⟨h1, hnm, hs⟩ := h1
    have hnames : (fs ++ gs ++ x).map (·.1) = Spec.setNames (.mk t p plain structs refs) := by
      rw [List.map_append, List.map_append, a2, b2, hnm, Spec.setNames]
    have hlen : (fs ++ gs ++ x).length = (Spec.setNames (.mk t p plain structs refs)).length := by
      have := congrArg List.length hnames
      rwa [List.length_map] at this
    have hrow : RowOk t (fs ++ gs ++ x) := by
      refine ⟨w1, by rw [hnames]; exact w2, by rw [hnames]; exact w3, by rw [hlen]; exact w4, ?_⟩
      intro f hf
      rcases List.mem_append.1 hf with hf | hf
      · rcases List.mem_append.1 hf with hf | hf
        · exact a3 f hf
        · exact b3 f hf
      · exact hs f hf
    obtain ⟨cmds, sent, st1, g1, g2, g3⟩ := log_talk S hS h2 h3 st rfl
    subst g2
    by_cases hne : fs ++ gs ++ x = []
    · refine ⟨cmds, sent, st1, g1, .inl ⟨fs, gs, x, log, st1.rows, a1, b1, h1, h2, ?_, fun c r hc => ?_⟩⟩
      · rw [afterUpdate, if_pos hne]
      · obtain ⟨q, h⟩ := g3 c r hc
        refine ⟨q, ?_⟩
        unfold ActiveModel.update
        rw [SM.bind_of_ok (hvals h1 h), if_neg (by simpa using hne)]
        rfl
    · obtain ⟨cmds2, sent2, st2, k1, k2, k3⟩ := update_talk S st1 (key := key) (id := id) hrow hne hk
        (by rw [hlen]; exact hn) hid
      have hrun := run_update S st1.rows t key (fs ++ gs ++ x) id
      have hau : afterUpdate S st1.rows t key id (fs ++ gs ++ x) =
          S.updated st1.rows t key (Spec.meaning id) (meanings (fs ++ gs ++ x)) := by
        rw [afterUpdate, if_neg hne]
      have htalk : S.talk st (cmds ++ cmds2) = some (st2, sent ++ sent2, Spec.commands (cmds ++ cmds2)) := by
        rw [talk_append, g1, Option.bind_some, k1, Option.map_some, commands_append']
      have hgo : ∀ (c : Conn) (r : List Rx), AtRest S c (rxOf (sent ++ sent2) ++ r) →
          ∃ c1 c2 pr q, (ActiveModel.mk t p plain structs refs).intoValues c = (.ok (fs ++ gs ++ x), c1) ∧
            prepareStatement (intoUpdate (fs ++ gs ++ x) t key) c1 = (.ok pr, c2) ∧
            pr.params = ((fs ++ gs ++ x).map (·.2) ++ [id]).length ∧
            sendExecute pr.id ((fs ++ gs ++ x).map (·.2) ++ [id]) c2 = (.ok (), { c with
              rx := rxOf (Spec.frames q (S.run st1.rows
                (.update { table := t, columns := (fs ++ gs ++ x).map (·.1), key := key })
                (((fs ++ gs ++ x).map (·.2) ++ [id]).map Spec.meaning)).2) ++ r
              tx := c.tx ++ Spec.commands (cmds ++ cmds2)
              seqId := q }) := by
        intro c r hc
        obtain ⟨q, h⟩ := g3 c (rxOf sent2 ++ r)
          ⟨hc.pending, hc.faults, hc.track, hc.p41, by rw [hc.rx, rxOf_append, List.append_assoc]⟩
        obtain ⟨pr, c2, q2, e1, e2, e3⟩ := k3 { c with
          rx := rxOf sent2 ++ r
          tx := c.tx ++ Spec.commands cmds
          seqId := q } r (hc.next _ _ _)
        refine ⟨_, c2, pr, q2, hvals h1 h, e1, e2, ?_⟩
        rw [e3, commands_append', ← List.append_assoc]
      cases he : S.refuses st1.rows (S.updated st1.rows t key (Spec.meaning id) (meanings (fs ++ gs ++ x))) with
      | none =>
        rw [he] at hrun
        dsimp only at hrun
        refine ⟨cmds ++ cmds2, sent ++ sent2, st2, htalk, .inl ⟨fs, gs, x, log, st1.rows, a1, b1, h1, h2, ?_,
          fun c r hc => ?_⟩⟩
        · rw [k2, hrun, hau]
        · obtain ⟨c1, c2, pr, q, e1, e2, e3, e4⟩ := hgo c r hc
          rw [hrun] at e4
          obtain ⟨q1, e5⟩ := execute_ok hS.message hc.track e3 e4
          refine ⟨q1, ?_⟩
          unfold ActiveModel.update
          rw [SM.bind_of_ok e1, if_pos hne]
          show (prepareStatement (intoUpdate (fs ++ gs ++ x) t key) >>= _) c1 = _
          rw [SM.bind_of_ok e2, SM.bind_of_ok e5]
          rfl
      | some e =>
        rw [he] at hrun
        dsimp only at hrun
        have hst : st2.rows = st1.rows := by rw [k2, hrun]
        refine ⟨cmds ++ cmds2, sent ++ sent2, st2, htalk, .inr ⟨log, e, by rw [hst]; exact h2,
          .inr ⟨fs, gs, x, a1, b1, h1, by rw [hst, hau]; exact he⟩, fun c r hc => ?_⟩⟩
        obtain ⟨c1, c2, pr, q, e1, e2, e3, e4⟩ := hgo c r hc
        rw [hrun] at e4
        obtain ⟨q1, e5⟩ := execute_refused (hS.state _ _ _ he) (hS.code _ _ _ he) hc.p41 e3 e4
        refine ⟨q1, ?_⟩
        unfold ActiveModel.update
        rw [SM.bind_of_ok e1, if_pos hne]
        show (prepareStatement (intoUpdate (fs ++ gs ++ x) t key) >>= _) c1 = _
        rw [SM.bind_of_ok e2]
        exact SM.bind_of_err e5

/-! ### a concrete server -/

namespace C66

/-- every table has the generated key `id`, at most two rows, and NULL as default. -/
def server : SqlServer :=
  { eq := fun a b =>
      match a, b with
      | .int _ _ x, .int _ _ y => x == y
      | .str x, .str y => x == y
      | _, _ => false
    defaults := fun _ _ => .null
    auto := fun _ => some "id".toList
    blank := fun d => d == .null || d == .int 4 true 0
    nextKey := fun t rows => .ofNat (rows.length + 10 * t.length + 1)
    keyDatum := fun _ id => .int 4 true id.toNat
    plainId := fun _ _ => 0
    refuses := fun _ after =>
      if 2 < (after "pet".toList).length then some { code := 1114, state := "HY000".toList, msg := "full".toList }
      else none
    nextStmt := fun st => if (st.prepared 1).isNone then 1 else 2
    paramDef := [1, 2, 3]
    status := 2
    warnings := 0
    message := []
    protocol41 := true }

theorem server_fair : Fair server := by
  refine ⟨by decide, ?_, ?_⟩ <;>
  · intro rows rows' e h
    unfold server at h
    dsimp only at h
    split at h
    · cases h
      decide
    · cases h

def empty : SqlState := { rows := fun _ => [], prepared := fun _ => none, long := fun _ _ => none }

def person : ActiveModel := .mk "person".toList (some "id".toList)
  [("id".toList, none), ("name".toList, some (.ok (.bytes [65])))] [] .nil

def pet : ActiveModel := .mk "pet".toList (some "id".toList)
  [("id".toList, none), ("name".toList, some (.ok (.bytes [82])))] [] (.insert "owner".toList person .nil)

theorem pet_writable : Writable pet := by
  have hs : ∀ b : Bytes, b.length < 2 ^ 64 → Spec.SendableOut (.ok (.bytes b)) := fun b hb =>
    ⟨_, rfl, fun b' h => by cases h; exact hb⟩
  have hp : ∀ b : Bytes, b.length < 2 ^ 64 →
      ∀ f ∈ [("id".toList, none), ("name".toList, some (Out.ok (ε := SerializeError) (Value.bytes b)))],
      ∀ x, f.2 = some x → Spec.SendableOut x := by
    intro b hb f hf x hx
    simp only [List.mem_cons, List.not_mem_nil, or_false] at hf
    rcases hf with rfl | rfl
    · cases hx
    · cases hx; exact hs b hb
  unfold pet person
  rw [Writable]
  refine ⟨by decide, by decide +kernel, by decide +kernel, by decide +kernel, hp _ (by decide), by simp, ?_⟩
  rw [WritableRefs, Writable]
  exact ⟨⟨by decide, by decide +kernel, by decide +kernel, by decide +kernel, hp _ (by decide), by simp,
    trivial⟩, trivial⟩

/-- what the connector sends to insert the pet. -/
def cmds : List Bytes :=
  [0x16 :: utf8 "insert into `person` (`name`) values (?)".toList,
   [23, 1, 0, 0, 0, 0, 1, 0, 0, 0, 0, 1, 253, 0, 1, 65],
   0x16 :: utf8 "insert into `pet` (`name`, `owner`) values (?, ?)".toList,
   [23, 2, 0, 0, 0, 0, 1, 0, 0, 0, 0, 1, 253, 0, 8, 128, 1, 82, 61, 0, 0, 0, 0, 0, 0, 0]]

/-- columns of the rows of a table. -/
def rowsOf (st : SqlState) (t : String) (cols : List String) : List (List Spec.Datum) :=
  (st.rows t.toList).map fun r => cols.map fun c => r c.toList

/-- the server stores the person with the key 61, then the pet with that key in its column `owner`. -/
example : (server.talk empty cmds).map (fun x =>
      (rowsOf x.1 "person" ["id", "name"], rowsOf x.1 "pet" ["id", "name", "owner"])) =
    some ([[.int 4 true 61, .str [65]]], [[.int 4 true 31, .str [82], .int 8 true 61]]) := by
  decide +kernel

/-- and the connector, fed with the answers, sends just that. -/
example : (server.talk empty cmds).map (fun x =>
      ((pet.insert (exConn x.2.1)).1, decide ((pet.insert (exConn x.2.1)).2.tx = x.2.2),
        (pet.insert (exConn x.2.1)).2.rx.length)) = some (.ok 31, true, 0) := by
  decide +kernel

/-- when the table is full, the person is stored, the pet is not, and the caller is told so. -/
example :
    let full := { empty with rows := fun t => if t = "pet".toList then [fun _ => .null, fun _ => .null] else [] }
    (server.talk full cmds).map (fun x =>
      ((pet.insert (exConn x.2.1)).1, rowsOf x.1 "person" ["id", "name"], (x.1.rows "pet".toList).length)) =
    some (.err (.server (.error 1114 (some (utf8 "HY000".toList)) "full".toList)),
      [[.int 4 true 61, .str [65]]], 2) := by
  decide +kernel

end C66

end Verif

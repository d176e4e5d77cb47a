import Verif.Proofs.Changed
import Verif.Props.C67_RoundTrip

/-!
# C80 — after an update a query finds the new values, and everything else as before

`Spec.Becomes` says what each field is to be: set fields have the value written, other fields their old
value, a reference is kept, leads to the row with the key given, or to the model inserted with the update.
-/

namespace Verif

open Spec (SqlServer SqlState Tables Row Field Rec Database Writable WritableRefs Holds KeysFit shape HasField HasRef
  refModel RefUpdates tablesOf refTables Becomes)
open Spec.SqlServer (Stores meanings withRow)

theorem hasRef_head {t : Str} (d : RefDefs) (hs : Spec.RefDefs.Sound t d) {path : List Str} {c : Str}
    (h : HasRef d path c) :
    ∃ f path' m', path = f :: path' ∧ refModel f d = some m' ∧ HasField m' path' c := by
  match d with
  | .nil => cases h
  | .cons g m r =>
    cases h with
    | here h => exact ⟨g, _, m, rfl, by rw [refModel, if_pos rfl], h⟩
    | there h =>
      rw [Spec.RefDefs.Sound] at hs
      obtain ⟨f, path', m', e, h1, h2⟩ := hasRef_head r hs.2.2.2.2.2.2 h
      refine ⟨f, path', m', e, ?_, h2⟩
      rw [refModel, if_neg]
      · exact h1
      · rintro rfl
        rw [refModel_fresh hs.2.2.2.2.1] at h1
        cases h1

theorem fit_change {refs : RefUpdates} {d : RefDefs} (h : refs.Fit d) {f : Str} {m' : ModelDef}
    (hm : refModel f d = some m') :
    refs.Keeps f ∨ (∃ v, refs.Points f v) ∨ ∃ mv, refs.Inserts f mv ∧ m' = shape mv := by
  induction h with
  | nil => cases hm
  | @keep g m r d _ ih =>
    rw [refModel] at hm
    split at hm
    · rename_i e; subst e; exact .inl .here
    · rcases ih hm with h | ⟨v, h⟩ | ⟨mv, h, e⟩
      · exact .inl (.keep h)
      · exact .inr (.inl ⟨v, .keep h⟩)
      · exact .inr (.inr ⟨mv, .keep h, e⟩)
  | @point g v m r d _ ih =>
    rw [refModel] at hm
    split at hm
    · rename_i e; subst e; exact .inr (.inl ⟨v, .here⟩)
    · rcases ih hm with h | ⟨v, h⟩ | ⟨mv, h, e⟩
      · exact .inl (.point h)
      · exact .inr (.inl ⟨v, .point h⟩)
      · exact .inr (.inr ⟨mv, .point h, e⟩)
  | @insert g mv r d _ ih =>
    rw [refModel] at hm
    split at hm
    · rename_i e; subst e; cases hm; exact .inr (.inr ⟨mv, .here, rfl⟩)
    · rcases ih hm with h | ⟨v, h⟩ | ⟨mv, h, e⟩
      · exact .inl (.insert h)
      · exact .inr (.inl ⟨v, .insert h⟩)
      · exact .inr (.inr ⟨mv, .insert h, e⟩)

theorem inserts_writable {refs : RefUpdates} (hw : WritableRefs refs.active) {f : Str} {mv : ModelVal}
    (h : refs.Inserts f mv) : Writable mv.intoActive := by
  induction h with
  | here => rw [RefUpdates.active, WritableRefs] at hw; exact hw.1
  | keep _ ih => rw [RefUpdates.active, WritableRefs] at hw; exact ih hw
  | point _ ih => rw [RefUpdates.active, WritableRefs] at hw; exact ih hw.2
  | insert _ ih => rw [RefUpdates.active, WritableRefs] at hw; exact ih hw.2

/-- An update of a model of type `m` that makes sense: its values can be written, the references are those
of the type, inserted models have the keys of their tables, no model refers to the table being updated, a
column is not set under another name than that of a kept reference. -/
structure Update (S : SqlServer) (m : ModelDef) (p : Option Str)
    (plain : List (Str × Option (Out SerializeError Value)))
    (structs : List (Str × Option (List (Str × Out SerializeError Value)))) (refs : RefUpdates) : Prop where
  writable : Writable (.mk m.table p plain structs refs.active)
  sound : Spec.ModelDef.Sound m
  fit : refs.Fit m.refs
  keys : ∀ f mv, refs.Inserts f mv → KeysFit S mv
  apart : m.table ∉ refTables m.refs
  kept : ∀ f, refs.Keeps f → f ∉ Spec.setNames (.mk m.table p plain structs refs.active)

/-- all references of the row lead to rows all of whose references do, and so do the keys given. -/
structure Leads (db : Database) (m : ModelDef) (refs : RefUpdates) (r : Rec) : Prop where
  row : db.Complete m r
  points : ∀ f v m', refs.Points f v → refModel f m.refs = some m' →
    ∃ r', db.Row m' (Spec.meaning v) r' ∧ db.Complete m' r'

/-- The tables after an update: the same rows in the same places, of which only those with the key are
changed; each field of those has become what it is to be, and every reference that led somewhere leads
somewhere; the fields of all other rows are the same, also along their references. -/
theorem C80_tables (S : SqlServer) (m : ModelDef) (p : Option Str)
    (plain : List (Str × Option (Out SerializeError Value)))
    (structs : List (Str × Option (List (Str × Out SerializeError Value)))) (refs : RefUpdates)
    (hu : Update S m p plain structs refs) (id : Value) (fs gs fks : List Field) (log : List Row)
    (rows rows1 rows' : Tables) (h1 : Spec.PlainSet plain fs) (h2 : Spec.StructSet structs gs)
    (h3 : Spec.Referred refs.active log fks) (h4 : Stores S rows log rows1)
    (h5 : rows' = afterUpdate S rows1 m.table m.primary id (fs ++ gs ++ fks))
    (hkd : (S.database rows').Keyed m) :
    ∃ g : Rec → Rec, rows' m.table = (rows m.table).map g ∧
      (∀ r, S.eq (r m.primary) (Spec.meaning id) = true →
        (Leads (S.database rows) m refs r → (S.database rows').Complete m (g r)) ∧
        ∀ path c d, Becomes (S.database rows) m plain structs refs r path c d →
          (S.database rows').Reads m (g r) path c d) ∧
      (∀ r, S.eq (r m.primary) (Spec.meaning id) = false → g r = r ∧
        ((S.database rows).Complete m r → (S.database rows').Complete m r) ∧
        ∀ path c d, (S.database rows).Reads m r path c d → (S.database rows').Reads m r path c d) := by
  obtain ⟨hw, hs, hfit, hkeys, hself, hkeep⟩ := hu
  have hnames : (fs ++ gs ++ fks).map (·.1) = Spec.setNames (.mk m.table p plain structs refs.active) := by
    rw [List.map_append, List.map_append, plainSet_names h1, structSet_names h2, referred_names _ h3, Spec.setNames]
  rw [Writable] at hw
  have hnd : ((fs ++ gs ++ fks).map (·.1)).Nodup := by rw [hnames]; exact hw.2.2.1
  have hsr : Spec.RefDefs.Sound m.table m.refs := by
    match m, hs with
    | .mk t p plain structs refs, hs => rw [Spec.ModelDef.Sound] at hs; exact hs.2.2.2.2.2.2
  have hkr : (S.database rows').KeyedRefs m.refs := by
    match m, hkd with
    | .mk t p plain structs refs, hkd => rw [Database.Keyed] at hkd; exact hkd
  have hsame : rows1 m.table = rows m.table :=
    stores_other h4 fun row hr he => hself (he ▸ updates_tables hfit h3 row hr)
  have hother : ∀ t, t ≠ m.table → rows' t = rows1 t := by
    intro t ht
    rw [h5]
    unfold afterUpdate
    split
    · rfl
    · unfold Spec.SqlServer.updated; rw [if_neg ht]
  have hrefs : ∀ t ∈ refTables m.refs, rows' t = rows1 t := fun t ht => hother t fun e => hself (e ▸ ht)
  have hg := grows_stores h4
  -- what is read along references is read as before
  have hold : ∀ m' (r x : Rec) path, (∀ t ∈ refTables m'.refs, t ∈ refTables m.refs) →
      (S.database rows).follow m' r path = some x → (S.database rows').follow m' r path = some x := by
    intro m' r x path hsub h
    rw [follow_congr path m' r fun t ht => hrefs t (hsub t ht)]
    exact follow_grows hg path m' r x h
  have hrow : ∀ m' key (x : Rec), m'.table ∈ refTables m.refs → (S.database rows).Row m' key x →
      (S.database rows').Row m' key x := by
    intro m' key x ht h
    have e : rows' m'.table = rows1 m'.table := hrefs _ ht
    obtain ⟨more, hm⟩ := hg m'.table
    unfold Database.Row at h ⊢
    have h' : (rows m'.table).find? (fun r' => S.eq key (r' m'.primary)) = some x := h
    show (rows' m'.table).find? (fun r' => S.eq key (r' m'.primary)) = some x
    rw [e, ← hm, List.find?_append, h']
    rfl
  refine ⟨fun r => if S.eq (r m.primary) (Spec.meaning id) then
      Spec.SqlServer.assign (meanings (fs ++ gs ++ fks)) r else r, ?_, fun r he => ?_, fun r he => ?_⟩
  · rw [h5]
    unfold afterUpdate
    split
    · rename_i e
      rw [e, hsame]
      symm
      convert List.map_id _ using 2
      funext r
      split <;> rfl
    · unfold Spec.SqlServer.updated
      rw [if_pos rfl, hsame]
  swap
  · refine ⟨?_, fun hc path c hf => ?_, fun path c d hd => ?_⟩
    · dsimp only; rw [if_neg (by rw [he]; simp)]
    · obtain ⟨x, hx⟩ := hc path c hf
      exact ⟨x, hold m r x path (fun _ h => h) hx⟩
    · obtain ⟨x, hx, hxd⟩ := hd
      exact ⟨x, hold m r x path (fun _ h => h) hx, hxd⟩
  dsimp only
  rw [if_pos he]
  generalize hr' : Spec.SqlServer.assign (meanings (fs ++ gs ++ fks)) r = r'
  have hset : ∀ c v, (c, v) ∈ fs ++ gs ++ fks → r' c = Spec.meaning v := by
    intro c v h
    rw [← hr']
    unfold Spec.SqlServer.assign
    rw [given_mem hnd h]
    rfl
  have hunset : ∀ c, c ∉ Spec.setNames (.mk m.table p plain structs refs.active) → r' c = r c := by
    intro c h
    rw [← hr']
    unfold Spec.SqlServer.assign
    rw [given_none (by rw [hnames]; exact h)]
    rfl
  have hkept : ∀ f path x, refs.Keeps f → (S.database rows).follow m r (f :: path) = some x →
      (S.database rows').follow m r' (f :: path) = some x := by
    intro f path x hk hx
    have := hold m r x (f :: path) (fun _ h => h) hx
    rw [Database.follow] at this ⊢
    rw [hunset f (hkeep f hk)]
    exact this
  have hpoint : ∀ f v m' y path, refs.Points f v → refModel f m.refs = some m' →
      (S.database rows).Row m' (Spec.meaning v) y →
      ∀ x, (S.database rows).follow m' y path = some x → (S.database rows').follow m r' (f :: path) = some x := by
    intro f v m' y path hp hm hy x hx
    have hsub := refModel_tables hm
    rw [tablesOf_eq] at hsub
    rw [Database.follow, hm]
    dsimp only
    rw [hset f v (List.mem_append_right _ (points_mem h3 hp))]
    have : List.find? (fun r' => (S.database rows').eq (Spec.meaning v) (r' m'.primary))
        ((S.database rows').rows m'.table) = some y := hrow m' _ y (hsub _ (List.mem_cons_self ..)) hy
    rw [this]
    exact hold m' y x path (fun t ht => hsub t (List.mem_cons_of_mem _ ht)) hx
  have hins : ∀ f mv path c o, refs.Inserts f mv → Holds mv path c o →
      ∃ x, (S.database rows').follow m r' (f :: path) = some x ∧ Spec.HoldsRow S x c o := by
    intro f mv path c o hi hh
    obtain ⟨k, y, i1, i2, i3, i4⟩ := inserts_stored hfit hsr hw.2.2.2.2.2.2 hkeys h3 h4 hi
    obtain ⟨i5, i6⟩ := i4 rows1 (Grows.refl _) (keyedRefs_congr m.refs hrefs hkr)
    obtain ⟨x, i7, i8⟩ := i6 path c o hh
    refine ⟨x, ?_, i8⟩
    rw [tablesOf_eq] at i3
    rw [Database.follow, i2]
    dsimp only
    rw [hset f k (List.mem_append_right _ i1)]
    have e : rows' (shape mv).table = rows1 (shape mv).table := hrefs _ (i3 _ (List.mem_cons_self ..))
    have : List.find? (fun r' => (S.database rows').eq (Spec.meaning k) (r' (shape mv).primary))
        ((S.database rows').rows (shape mv).table) = some y := by
      show List.find? _ (rows' (shape mv).table) = _
      rw [e]
      exact i5
    rw [this]
    dsimp only
    rw [follow_congr path _ y fun t ht => hrefs t (i3 t (List.mem_cons_of_mem _ ht))]
    exact i7
  constructor
  · rintro ⟨hc, hp⟩ path c hf
    have hcase : path = [] ∨ HasRef m.refs path c := by
      cases hf with
      | own _ => exact .inl rfl
      | sub h => exact .inr h
    rcases hcase with rfl | hrf
    · exact ⟨_, follow_nil ..⟩
    obtain ⟨f, path', m', rfl, hm, hf'⟩ := hasRef_head _ hsr hrf
    rcases fit_change hfit hm with hk | ⟨v, hv⟩ | ⟨mv, hmv, rfl⟩
    · obtain ⟨x, hx⟩ := hc _ _ hf
      exact ⟨x, hkept f path' x hk hx⟩
    · obtain ⟨y, hy, hyc⟩ := hp f v m' hv hm
      obtain ⟨x, hx⟩ := hyc _ _ hf'
      exact ⟨x, hpoint f v m' y path' hv hm hy x hx⟩
    · obtain ⟨o, ho⟩ := field_holds mv (inserts_writable hw.2.2.2.2.2.2 hmv) path' c hf'
      obtain ⟨x, hx, _⟩ := hins f mv path' c o hmv ho
      exact ⟨x, hx⟩
  · intro path c d hb
    cases hb with
    | plain hc =>
      refine ⟨r', follow_nil .., hset _ _ ?_⟩
      exact List.mem_append_left _ (List.mem_append_left _ (((C52_fields _ _ h1).1 _ _).2 hc))
    | member hs hx =>
      refine ⟨r', follow_nil .., hset _ _ ?_⟩
      exact List.mem_append_left _ (List.mem_append_right _ (struct_set_member h2 hs hx))
    | same hc => exact ⟨r', follow_nil .., hunset c (by rw [Spec.setNames] at hc ⊢; exact hc)⟩
    | kept hk hd =>
      obtain ⟨x, hx, hxd⟩ := hd
      exact ⟨x, hkept _ _ x hk hx, hxd⟩
    | pointed hp hm hy hd =>
      obtain ⟨x, hx, hxd⟩ := hd
      exact ⟨x, hpoint _ _ _ _ _ hp hm hy x hx, hxd⟩
    | inserted hi hh =>
      obtain ⟨x, hx, hxd⟩ := hins _ _ _ _ _ hi hh
      exact ⟨x, hx, hxd⟩

theorem own_col {t : Str} {m : ModelDef} (hs : Spec.RefDefs.Sound t m.refs) {c : Str} (h : HasField m [] c) :
    c ∈ m.cols := by
  cases h with
  | own h => exact h
  | sub h =>
    obtain ⟨f, path', m', e, _⟩ := hasRef_head _ hs h
    cases e

/-- Nothing is left open: every field of the model is to be something, unless it is a key that the server
generates for an inserted row. -/
theorem C80_becomes (S : SqlServer) (m : ModelDef) (p : Option Str)
    (plain : List (Str × Option (Out SerializeError Value)))
    (structs : List (Str × Option (List (Str × Out SerializeError Value)))) (refs : RefUpdates)
    (hu : Update S m p plain structs refs) (hn : ∀ f ∈ Spec.refNames refs.active, f ∉ m.cols)
    (db : Database) (r : Rec) (hl : Leads db m refs r)
    (path : List Str) (c : Str) (hf : HasField m path c) :
    (∃ d, Becomes db m plain structs refs r path c d) ∨
      ∃ f mv path', path = f :: path' ∧ refs.Inserts f mv ∧ Holds mv path' c none := by
  obtain ⟨hw, hs, hfit, hkeys, hself, hkeep⟩ := hu
  rw [Writable] at hw
  have hsr : Spec.RefDefs.Sound m.table m.refs := by
    match m, hs with
    | .mk t p plain structs refs, hs => rw [Spec.ModelDef.Sound] at hs; exact hs.2.2.2.2.2.2
  have hcase : path = [] ∨ HasRef m.refs path c := by
    cases hf with
    | own _ => exact .inl rfl
    | sub h => exact .inr h
  rcases hcase with rfl | hrf
  · by_cases hc : c ∈ Spec.setNames (.mk m.table none plain structs refs.active)
    · rw [Spec.setNames, List.mem_append, List.mem_append] at hc
      rcases hc with (hc | hc) | hc
      · obtain ⟨x, hx, hxe⟩ := List.mem_filterMap.1 hc
        obtain ⟨n, o⟩ := x
        cases o with
        | none => cases hxe
        | some o =>
          cases hxe
          obtain ⟨v, hv, _⟩ := hw.2.2.2.2.1 _ hx o rfl
          subst hv
          exact .inl ⟨_, .plain hx⟩
      · obtain ⟨s, hs, hx⟩ := List.mem_flatMap.1 hc
        obtain ⟨n, o⟩ := s
        cases o with
        | none => cases hx
        | some ms =>
          obtain ⟨x, hx', rfl⟩ := List.mem_map.1 hx
          have hx : x ∈ ms := hx'
          obtain ⟨v, hv, _⟩ := hw.2.2.2.2.2.1 _ hs ms rfl x hx
          obtain ⟨x1, x2⟩ := x
          dsimp only at hv
          subst hv
          exact .inl ⟨_, .member hs hx⟩
      · exact absurd (own_col hsr hf) (hn c hc)
    · exact .inl ⟨_, .same hc⟩
  obtain ⟨f, path', m', rfl, hm, hf'⟩ := hasRef_head _ hsr hrf
  rcases fit_change hfit hm with hk | ⟨v, hv⟩ | ⟨mv, hmv, rfl⟩
  · obtain ⟨x, hx⟩ := hl.row _ _ hf
    exact .inl ⟨x c, .kept hk ⟨x, hx, rfl⟩⟩
  · obtain ⟨y, hy, hyc⟩ := hl.points f v m' hv hm
    obtain ⟨x, hx⟩ := hyc _ _ hf'
    exact .inl ⟨x c, .pointed hv hm hy ⟨x, hx, rfl⟩⟩
  · obtain ⟨o, ho⟩ := field_holds mv (inserts_writable hw.2.2.2.2.2.2 hmv) path' c hf'
    cases o with
    | none => exact .inr ⟨f, mv, path', rfl, hmv, ho⟩
    | some v => exact .inl ⟨_, .inserted hmv ho⟩

/-- the object has this value in the field. -/
def Shows {X : Type} (conv : List Str × Str → Value → Out ParseError X) (obj : List ((List Str × Str) × X))
    (path : List Str) (c : Str) (d : Spec.Datum) : Prop :=
  ∃ v x, Spec.meaning v = d ∧ conv (path, c) v = .ok x ∧ ((path, c), x) ∈ obj

theorem object_shows {X : Type} {conv : List Str × Str → Value → Out ParseError X} {db : Database} {m : ModelDef}
    {obj : List ((List Str × Str) × X)} {r : Rec} (h : IsObject conv db m obj r) {path : List Str} {c : Str}
    {d : Spec.Datum} (hf : HasField m path c) (hd : db.Reads m r path c d) : Shows conv obj path c d := by
  obtain ⟨r1, h1, rfl⟩ := hd
  obtain ⟨r2, v, x, h3, h4, h5, h6⟩ := h.2.2 path c hf
  rw [h1] at h3
  cases h3
  exact ⟨v, x, h4, h5, h6⟩

/-- **C80**: there is a conversation in which a model is updated, and if the server carried it out, then a
query of the type of model, sent on the same connection after it and answered by the server from its tables,
returns an object for each row all of whose references led somewhere.  The object of a row with the key has in
each field what the field was to become; the object of any other row has in each field what the tables had
before the update. -/
theorem C80_update_query {X : Type} (S : SqlServer) (hS : Fair S) (st : SqlState) (m : ModelDef) (p : Option Str)
    (plain : List (Str × Option (Out SerializeError Value)))
    (structs : List (Str × Option (List (Str × Out SerializeError Value)))) (refs : RefUpdates) (id : Value)
    (hu : Update S m p plain structs refs) (hd : Spec.allDistinct (.mk m.table p plain structs refs.active))
    (hn : (Spec.setNames (.mk m.table p plain structs refs.active)).length + 1 < 2 ^ 16)
    (hid : Spec.Sendable id) :
    ∃ cmds sent st', S.talk st cmds = some (st', sent, Spec.commands cmds) ∧
      ((∃ e, ∀ (c : Conn) (r : List Rx), AtRest S c (rxOf sent ++ r) → ∃ q,
          ActiveModel.update id m.primary (.mk m.table p plain structs refs.active) c =
            (.err (refusal S e), { c with rx := r, tx := c.tx ++ Spec.commands cmds, seqId := q })) ∨
       (∀ (fp : FloatParse) (conv : List Str × Str → Value → Out ParseError X) (c : Conn)
          (ts : List Spec.Tok) (q : Spec.Select) (descs : List Spec.ColDesc) (cols : List Column)
          (rows : List (List Spec.Datum)) (ps : List Bytes) (status warnings : Nat) (r : List Rx),
          (S.database st'.rows).Keyed m →
          Spec.tokens (buildQuery m) = some ts → Spec.parseSelect ts = some q →
          DescsAs descs cols → descs.length < 2 ^ 56 →
          descs.map (fun d => (d.table, d.orgName)) = q.items →
          rows.Perm ((S.database st'.rows).select q) → TextRows fp cols rows ps →
          (∀ r ∈ st'.rows m.table, ∀ p c v r', HasField m p c →
            (S.database st'.rows).follow m r p = some r' → Spec.meaning v = r' c →
            ∃ x, conv (p, c) v = .ok x) →
          AtRest S c (rxOf sent ++ (rxOf (Spec.framesAll
            (UInt8.ofNat (Spec.frameCount (0x03 :: utf8 (buildQuery m))))
            (Spec.resultSet descs ps status warnings)) ++ r)) →
          ∃ c1 c2 c3 ok objs,
            ActiveModel.update id m.primary (.mk m.table p plain structs refs.active) c = (.ok (), c1) ∧
            query (buildQuery m) c1 = (.ok { columns := cols, okPacket := none }, c2) ∧
            RSet.collect (textReader fp (buildModel conv m)) { columns := cols, okPacket := none } c2
              = (.ok ({ columns := cols, okPacket := some ok }, objs), c3) ∧
            c3.rx = r ∧ c3.pendingResult = false ∧
            c3.tx = c.tx ++ Spec.commands (cmds ++ [0x03 :: utf8 (buildQuery m)]) ∧
            (∀ row ∈ st.rows m.table, S.eq (row m.primary) (Spec.meaning id) = true →
              Leads (S.database st.rows) m refs row →
              ∃ obj ∈ objs, ∀ path c d, HasField m path c →
                Becomes (S.database st.rows) m plain structs refs row path c d → Shows conv obj path c d) ∧
            (∀ row ∈ st.rows m.table, S.eq (row m.primary) (Spec.meaning id) = false →
              (S.database st.rows).Complete m row →
              ∃ obj ∈ objs, ∀ path c d, HasField m path c →
                (S.database st.rows).Reads m row path c d → Shows conv obj path c d))) := by
  have hkey : '`' ∉ m.primary := by
    have := hu.sound
    match m, this with
    | .mk t p plain structs refs, hs => rw [Spec.ModelDef.Sound] at hs; exact hs.2.2.1
  obtain ⟨cmds, sent, st', h1, h2⟩ := C66_update S hS st id m.primary m.table p plain structs refs.active
    hu.writable hd hkey hn hid
  refine ⟨cmds, sent, st', h1, ?_⟩
  rcases h2 with ⟨fs, gs, fks, log, rows1, i1, i2, i3, i4, i5, h4⟩ | ⟨_, e, _, _, h2⟩
  swap
  · exact .inl ⟨e, h2⟩
  refine .inr ?_
  intro fp conv c ts q descs cols rows ps status warnings r hkd ht hq hdc hl hds hperm htr hconv hc
  obtain ⟨q1, h5⟩ := h4 c _ hc
  obtain ⟨c2, objs, c3, ok, recs, g1, g2, g3, g4, g5⟩ := C65_models fp conv m hu.sound
    (S.database st'.rows) hkd { c with
      rx := rxOf (Spec.framesAll (UInt8.ofNat (Spec.frameCount (0x03 :: utf8 (buildQuery m))))
              (Spec.resultSet descs ps status warnings)) ++ r
      tx := c.tx ++ Spec.commands cmds
      seqId := q1 } ts q ht hq descs cols rows ps status warnings r hc.pending hc.faults hdc hl hds hperm htr
      hconv rfl
  obtain ⟨g, k1, k2, k3⟩ := C80_tables S m p plain structs refs hu id fs gs fks log st.rows rows1 st'.rows
    i1 i2 i3 i4 i5 hkd
  have hobj : ∀ row ∈ st.rows m.table, (S.database st'.rows).Complete m (g row) →
      ∃ obj ∈ objs, IsObject conv (S.database st'.rows) m obj (g row) := by
    intro row hrow hcomp
    have hmem : g row ∈ recs := by
      refine g3.symm.subset (List.mem_filter.2 ⟨?_, by simpa using hcomp⟩)
      show g row ∈ st'.rows m.table
      rw [k1]
      exact List.mem_map.2 ⟨row, hrow, rfl⟩
    clear g3 g2
    induction g4 with
    | nil => cases hmem
    | @cons obj r objs recs ha _ ih =>
      rcases List.mem_cons.1 hmem with e | hmem
      · exact ⟨obj, List.mem_cons_self .., by rw [e]; exact ha⟩
      · obtain ⟨o, ho, h⟩ := ih hmem
        exact ⟨o, List.mem_cons_of_mem _ ho, h⟩
  refine ⟨_, c2, c3, ok, objs, h5, g1, g2, by rw [g5], by rw [g5], ?_, ?_, ?_⟩
  · rw [g5, commands_append', ← List.append_assoc]
    simp [Spec.commands]
  · intro row hrow he hl
    obtain ⟨obj, ho, hio⟩ := hobj row hrow ((k2 row he).1 hl)
    exact ⟨obj, ho, fun path c d hf hb => object_shows hio hf ((k2 row he).2 path c d hb)⟩
  · intro row hrow he hl
    obtain ⟨e, hc', hr'⟩ := k3 row he
    obtain ⟨obj, ho, hio⟩ := hobj row hrow (by rw [e]; exact hc' hl)
    rw [e] at hio
    exact ⟨obj, ho, fun path c d hf hb => object_shows hio hf (hr' path c d hb)⟩

/-! ### a concrete update -/

namespace C80ex

open C66 (server)

/-- a new owner for the pet 31, and a new name. -/
def refs : RefUpdates := .insert "owner".toList C67.person .nil

def plain : List (Str × Option (Out SerializeError Value)) :=
  [("id".toList, none), ("name".toList, some (.ok (.bytes [83])))]

def before (t : Str) : List Rec :=
  if t = "pet".toList then
    [fun c => if c = "id".toList then .int 4 true 31 else if c = "name".toList then .str [82] else .int 4 true 5,
     fun c => if c = "id".toList then .int 4 true 32 else if c = "name".toList then .str [84] else .int 4 true 5]
  else if t = "person".toList then
    [fun c => if c = "id".toList then .int 4 true 5 else .str [66]]
  else []

def start : SqlState := { rows := before, prepared := fun _ => none, long := fun _ _ => none }

/-- what the connector sends for it. -/
def cmds : List Bytes :=
  [0x16 :: utf8 "insert into `person` (`name`) values (?)".toList,
   [23, 1, 0, 0, 0, 0, 1, 0, 0, 0, 0, 1, 253, 0, 1, 65],
   0x16 :: utf8 "update `pet` set `name` = ?, `owner` = ? where `id` = ?".toList,
   [23, 2, 0, 0, 0, 0, 1, 0, 0, 0, 0, 1, 253, 0, 8, 128, 3, 128, 1, 83, 62, 0, 0, 0, 0, 0, 0, 0, 31, 0, 0, 0]]

end C80ex

open C80ex in
/-- the pet 31 is found with its new name and its new owner, the pet 32 as before. -/
theorem C80_example :
    ((C66.server.talk start cmds).bind fun x =>
      ((Spec.tokens (buildQuery (shape C67.pet))).bind Spec.parseSelect).map
        ((C66.server.database x.1.rows).select ·)) =
      some [[.int 4 true 31, .str [83], .int 4 true 62, .str [65]], [.int 4 true 32, .str [84], .int 4 true 5, .str [66]]] ∧
    ((Spec.tokens (buildQuery (shape C67.pet))).bind Spec.parseSelect).map ((C66.server.database before).select ·) =
      some [[.int 4 true 31, .str [82], .int 4 true 5, .str [66]], [.int 4 true 32, .str [84], .int 4 true 5, .str [66]]] := by
  refine ⟨?_, ?_⟩ <;> decide +kernel

open C80ex in
theorem C80_example_update : Update C66.server (shape C67.pet) (some "id".toList) plain [] refs := by
  have hw := C66.pet_writable
  unfold C66.pet at hw
  rw [Writable] at hw
  have hk := C67.pet_fits
  unfold C67.pet at hk
  rw [KeysFit, Spec.KeysFitRefs] at hk
  have hact : refs.active = .insert "owner".toList C66.person .nil := by
    unfold refs C67.person C66.person
    simp [RefUpdates.active, ModelVal.intoActive, refsIntoActive]
  have hown : C66.person = C67.person.intoActive := by
    unfold C67.person C66.person
    simp [ModelVal.intoActive, refsIntoActive]
  refine ⟨?_, ?_, ?_, ?_, ?_, ?_⟩
  · rw [hact, Writable]
    refine ⟨by decide +kernel, by decide +kernel, by decide +kernel, by decide +kernel, ?_, by simp, hw.2.2.2.2.2.2⟩
    intro f hf x hx
    simp only [plain, List.mem_cons, List.not_mem_nil, or_false] at hf
    rcases hf with rfl | rfl
    · cases hx
    · cases hx; exact ⟨_, rfl, fun b h => by cases h; decide⟩
  · unfold C67.pet C67.person
    simp only [shape, Spec.shapeRefs, Spec.ModelDef.Sound, Spec.RefDefs.Sound, Spec.fresh]
    refine ⟨?_, ?_, ?_, ?_, ?_, ?_, ?_, ?_, ?_, ?_, ?_, ⟨?_, ?_, ?_, ?_, ?_, ?_, ?_⟩, ?_⟩ <;>
      trivial
  · unfold C67.pet
    rw [shape, Spec.shapeRefs, Spec.shapeRefs]
    exact .insert .nil
  · intro f mv h
    unfold refs at h
    cases h with
    | here => exact hk.2.1
    | insert h => cases h
  · decide +kernel
  · intro f h
    unfold refs at h
    cases h with
    | insert h => cases h

end Verif

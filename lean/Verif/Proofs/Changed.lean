import Verif.Spec.Changed
import Verif.Proofs.RoundTrip

/-! # Lemmas: rows after an update -/

namespace Verif

open Spec (SqlServer Tables Row Field Rec Database Writable WritableRefs Holds KeysFit refModel shape shapeRefs
  RefUpdates tablesOf refTables HasField HasRef)
open Spec.SqlServer (Stores meanings withRow)

theorem follow_grows {S : SqlServer} {rows rows' : Tables} (hg : Grows rows rows') (path : List Str) :
    ∀ (m : ModelDef) (r x : Rec), (S.database rows).follow m r path = some x →
      (S.database rows').follow m r path = some x := by
  induction path with
  | nil => intro m r x h; rw [follow_nil] at h ⊢; exact h
  | cons f path ih =>
    intro m r x h
    rw [Database.follow] at h ⊢
    cases hm : refModel f m.refs with
    | none => rw [hm] at h; cases h
    | some m' =>
      rw [hm] at h
      dsimp only at h ⊢
      cases hf : ((S.database rows).rows m'.table).find?
          (fun r' => (S.database rows).eq (r f) (r' m'.primary)) with
      | none => rw [hf] at h; cases h
      | some r' =>
        rw [hf] at h
        have : ((S.database rows').rows m'.table).find?
            (fun r' => (S.database rows').eq (r f) (r' m'.primary)) = some r' := by
          obtain ⟨more, hm⟩ := hg m'.table
          have e : (S.database rows').rows m'.table = (S.database rows).rows m'.table ++ more := hm.symm
          rw [e, List.find?_append]
          have hf' : ((S.database rows).rows m'.table).find?
            (fun r' => (S.database rows').eq (r f) (r' m'.primary)) = some r' := hf
          rw [hf']; rfl
        rw [this]
        exact ih _ _ _ h

theorem refModel_tables {f : Str} {m' : ModelDef} : ∀ {rs : RefDefs}, refModel f rs = some m' →
    ∀ t, t ∈ tablesOf m' → t ∈ refTables rs
  | .nil, h, _, _ => by simp [refModel] at h
  | .cons g m rest, h, t, ht => by
    rw [refModel] at h
    rw [refTables, List.mem_append]
    split at h
    · cases h; exact .inl ht
    · exact .inr (refModel_tables h t ht)

theorem tablesOf_eq (m : ModelDef) : tablesOf m = m.table :: refTables m.refs := by
  match m with
  | .mk .. => rw [tablesOf]; rfl

theorem follow_congr {S : SqlServer} {rows rows' : Tables} (path : List Str) :
    ∀ (m : ModelDef) (r : Rec), (∀ t ∈ refTables m.refs, rows' t = rows t) →
      (S.database rows').follow m r path = (S.database rows).follow m r path := by
  induction path with
  | nil => intro m r _; rw [follow_nil, follow_nil]
  | cons f path ih =>
    intro m r h
    rw [Database.follow, Database.follow]
    cases hm : refModel f m.refs with
    | none => rfl
    | some m' =>
      dsimp only
      have h1 : (S.database rows').rows m'.table = (S.database rows).rows m'.table :=
        h _ (refModel_tables hm _ (by rw [tablesOf_eq]; exact List.mem_cons_self ..))
      have h2 : (S.database rows').eq = (S.database rows).eq := rfl
      rw [h1, h2]
      cases ((S.database rows).rows m'.table).find? fun r' => (S.database rows).eq (r f) (r' m'.primary) with
      | none => rfl
      | some r' =>
        exact ih m' r' fun t ht => h t (refModel_tables hm t (by rw [tablesOf_eq]; exact List.mem_cons_of_mem _ ht))

mutual
theorem inserted_tables (mv : ModelVal) {log : List Row} {id : UInt64}
    (hi : Spec.Inserted mv.intoActive log id) : ∀ row ∈ log, row.table ∈ tablesOf (shape mv) := by
  match mv with
  | .mk t p ai plain structs refs =>
    rw [ModelVal.intoActive] at hi
    rw [shape, tablesOf]
    generalize hlog : log = log0 at hi
    cases hi with
    | @mk _ _ _ _ _ fs gs log1 fks _ h1 h2 h3 =>
    subst hlog
    intro row hr
    rcases List.mem_append.1 hr with hr | hr
    · exact List.mem_cons_of_mem _ (referred_tables refs h3 row hr)
    · rw [List.mem_singleton.1 hr]
      exact List.mem_cons_self ..

theorem referred_tables (refs : RefVals) {log : List Row} {fks : List Field}
    (hi : Spec.Referred (refsIntoActive refs) log fks) : ∀ row ∈ log, row.table ∈ refTables (shapeRefs refs) := by
  match refs with
  | .nil =>
    rw [refsIntoActive] at hi
    cases hi
    intro _ h; cases h
  | .cons f m rest =>
    rw [refsIntoActive] at hi
    rw [shapeRefs, refTables]
    cases hi with
    | insert i1 i2 i3 =>
    intro row hr
    rcases List.mem_append.1 hr with hr | hr
    · exact List.mem_append_left _ (inserted_tables m i1 row hr)
    · exact List.mem_append_right _ (referred_tables rest i3 row hr)
end

theorem updates_tables {refs : RefUpdates} {d : RefDefs} (hf : refs.Fit d) {log : List Row} {fks : List Field}
    (hi : Spec.Referred refs.active log fks) : ∀ row ∈ log, row.table ∈ refTables d := by
  induction hf generalizing log fks with
  | nil => rw [RefUpdates.active] at hi; cases hi; intro _ h; cases h
  | keep _ ih =>
    rw [RefUpdates.active] at hi
    cases hi with
    | unset hi => intro row hr; rw [refTables]; exact List.mem_append_right _ (ih hi row hr)
  | point _ ih =>
    rw [RefUpdates.active] at hi
    cases hi with
    | set hi => intro row hr; rw [refTables]; exact List.mem_append_right _ (ih hi row hr)
  | insert _ ih =>
    rw [RefUpdates.active] at hi
    cases hi with
    | insert i1 i2 i3 =>
      intro row hr
      rw [refTables]
      rcases List.mem_append.1 hr with hr | hr
      · exact List.mem_append_left _ (inserted_tables _ i1 row hr)
      · exact List.mem_append_right _ (ih i3 row hr)

theorem stores_other {S : SqlServer} {rows rows' : Tables} {log : List Row} (h : Stores S rows log rows')
    {t : Str} (ht : ∀ row ∈ log, row.table ≠ t) : rows' t = rows t := by
  induction h with
  | nil => rfl
  | @cons rows row log rows' _ _ _ ih =>
    rw [ih fun w hw => ht w (List.mem_cons_of_mem _ hw)]
    unfold withRow
    rw [if_neg (Ne.symm (ht row (List.mem_cons_self ..)))]

theorem points_mem {refs : RefUpdates} {log : List Row} {fks : List Field}
    (hi : Spec.Referred refs.active log fks) {f : Str} {v : Value} (h : refs.Points f v) : (f, v) ∈ fks := by
  induction h generalizing log fks with
  | here => rw [RefUpdates.active] at hi; cases hi with | set hi => exact List.mem_cons_self ..
  | keep _ ih => rw [RefUpdates.active] at hi; cases hi with | unset hi => exact ih hi
  | point _ ih =>
    rw [RefUpdates.active] at hi; cases hi with | set hi => exact List.mem_cons_of_mem _ (ih hi)
  | insert _ ih =>
    rw [RefUpdates.active] at hi; cases hi with | insert _ _ hi => exact List.mem_cons_of_mem _ (ih hi)

/-- a model that is inserted for a reference: the column gets a key, and from then on the row with this
key is that of the model. -/
theorem inserts_stored {S : SqlServer} {refs : RefUpdates} {d : RefDefs} (hf : refs.Fit d) {t : Str}
    (hs : Spec.RefDefs.Sound t d) (hw : WritableRefs refs.active)
    (hk : ∀ f mv, refs.Inserts f mv → KeysFit S mv) {log : List Row} {fks : List Field} {rows rows' : Tables}
    (hi : Spec.Referred refs.active log fks) (hst : Stores S rows log rows') {f : Str} {mv : ModelVal}
    (h : refs.Inserts f mv) :
    ∃ k r, (f, k) ∈ fks ∧ refModel f d = some (shape mv) ∧ (∀ t ∈ tablesOf (shape mv), t ∈ refTables d) ∧
      ∀ rows'', Grows rows' rows'' → (S.database rows'').KeyedRefs d →
        (S.database rows'').Row (shape mv) (Spec.meaning k) r ∧ Stored S rows'' mv r := by
  have hfresh : ∀ {r : RefUpdates} {d' : RefDefs}, r.Fit d' → r.Inserts f mv → refModel f d' ≠ none := by
    intro r d' hfit hins
    induction hfit with
    | nil => cases hins
    | keep _ ih =>
      cases hins with
      | keep hins => rw [refModel]; split; (· simp); exact ih hins
    | point _ ih =>
      cases hins with
      | point hins => rw [refModel]; split; (· simp); exact ih hins
    | insert _ ih =>
      rw [refModel]; split
      · simp
      · cases hins with
        | here => contradiction
        | insert hins => exact ih hins
  induction hf generalizing rows log fks with
  | nil => cases h
  | @keep g m r d hr ih =>
    rw [RefUpdates.active] at hi hw
    rw [WritableRefs] at hw
    rw [Spec.RefDefs.Sound] at hs
    cases h with
    | keep h =>
    cases hi with
    | unset hi =>
    obtain ⟨k, x, h1, h2, h3, h4⟩ := ih hs.2.2.2.2.2.2 hw (fun f mv h => hk f mv (.keep h)) hi hst h
    refine ⟨k, x, h1, ?_, fun t ht => ?_, fun rows'' hg hkd => h4 rows'' hg ?_⟩
    · rw [refModel, if_neg]; (· exact h2)
      rintro rfl
      exact hfresh hr h (refModel_fresh hs.2.2.2.2.1)
    · rw [refTables]; exact List.mem_append_right _ (h3 t ht)
    · rw [Database.KeyedRefs] at hkd; exact hkd.2.2
  | @point g v m r d hr ih =>
    rw [RefUpdates.active] at hi hw
    rw [WritableRefs] at hw
    rw [Spec.RefDefs.Sound] at hs
    cases h with
    | point h =>
    cases hi with
    | set hi =>
    obtain ⟨k, x, h1, h2, h3, h4⟩ := ih hs.2.2.2.2.2.2 hw.2 (fun f mv h => hk f mv (.point h)) hi hst h
    refine ⟨k, x, List.mem_cons_of_mem _ h1, ?_, fun t ht => ?_, fun rows'' hg hkd => h4 rows'' hg ?_⟩
    · rw [refModel, if_neg]; (· exact h2)
      rintro rfl
      exact hfresh hr h (refModel_fresh hs.2.2.2.2.1)
    · rw [refTables]; exact List.mem_append_right _ (h3 t ht)
    · rw [Database.KeyedRefs] at hkd; exact hkd.2.2
  | @insert g mv' r d hr ih =>
    rw [RefUpdates.active] at hi hw
    rw [WritableRefs] at hw
    rw [Spec.RefDefs.Sound] at hs
    cases hi with
    | insert i1 i2 i3 =>
    obtain ⟨rows1, s1, s2⟩ := stores_split hst
    cases h with
    | here =>
      obtain ⟨x, pre, h1, h2, h3⟩ := inserted_stored S mv (hk f mv .here) hw.1 hs.2.2.2.2.2.1 i1 s1
      refine ⟨_, x, List.mem_cons_self .., by rw [refModel, if_pos rfl], fun t ht => ?_, fun rows'' hg hkd => ?_⟩
      · rw [refTables]; exact List.mem_append_left _ ht
      · rw [Database.KeyedRefs] at hkd
        have hg1 : Grows rows1 rows'' := (grows_stores s2).trans hg
        refine ⟨find_key hkd.1 ?_ (h2 _ i2), h3 rows'' hg1 hkd.2.1⟩
        refine (hg1 _).subset ?_
        rw [h1]
        exact List.mem_append_right _ (List.mem_singleton.2 rfl)
    | insert h =>
      obtain ⟨k, x, h1, h2, h3, h4⟩ := ih hs.2.2.2.2.2.2 hw.2 (fun f mv h => hk f mv (.insert h)) i3 s2 h
      refine ⟨k, x, List.mem_cons_of_mem _ h1, ?_, fun t ht => ?_, fun rows'' hg hkd => h4 rows'' hg ?_⟩
      · rw [refModel, if_neg]; (· exact h2)
        rintro rfl
        exact hfresh hr h (refModel_fresh hs.2.2.2.2.1)
      · rw [refTables]; exact List.mem_append_right _ (h3 t ht)
      · rw [Database.KeyedRefs] at hkd; exact hkd.2.2

theorem struct_set_member {structs : List (Str × Option (List (Str × Out SerializeError Value)))} {gs : List Field}
    (h : Spec.StructSet structs gs) {s x : Str} {ms : List (Str × Out SerializeError Value)} {v : Value}
    (hs : (s, some ms) ∈ structs) (hx : (x, .ok v) ∈ ms) : (s ++ '_' :: x, v) ∈ gs := by
  induction h with
  | nil => cases hs
  | unset _ ih =>
    rcases List.mem_cons.1 hs with he | hs
    · cases he
    · exact ih hs
  | set ms' _ ih =>
    rcases List.mem_cons.1 hs with he | hs
    · cases he
      obtain ⟨y, hy, hye⟩ := List.mem_map.1 hx
      cases hye
      exact List.mem_append_left _ (List.mem_map.2 ⟨y, hy, rfl⟩)
    · exact List.mem_append_right _ (ih hs)

theorem keyedRefs_congr {S : SqlServer} {rows rows' : Tables} : ∀ (d : RefDefs),
    (∀ t ∈ refTables d, rows' t = rows t) → ((S.database rows').KeyedRefs d → (S.database rows).KeyedRefs d)
  | .nil, _, h => by rw [Database.KeyedRefs]; trivial
  | .cons f (.mk t p plain structs refs) rest, h, hk => by
    rw [refTables, tablesOf] at h
    rw [Database.KeyedRefs, Database.Keyed] at hk ⊢
    refine ⟨?_, keyedRefs_congr refs (fun t ht => h t ?_) hk.2.1, keyedRefs_congr rest (fun t ht => h t ?_) hk.2.2⟩
    · have := hk.1
      have e : (S.database rows').rows t = (S.database rows).rows t := h t (by simp)
      change (((S.database rows').rows t).Pairwise _) at this
      rw [e] at this
      exact this
    · simp [ht]
    · simp [ht]

end Verif

import Verif.Props.C107_StoreMany
import Mathlib.Data.List.Nodup
import Mathlib.Data.List.Perm.Subperm

/-!
# C107, continued — what programs inserted at the same time is found, every model once, with its own references
-/

namespace Verif

open Spec (SqlServer SqlState Tables Row Field Rec Database Writable WritableRefs Holds HoldsRef HoldsRow KeysFit
  KeysFitRefs refModel shape shapeRefs Insertable InsertedAll HasField StoreJob StoreEvent StoreSystem eventsBy)
open Spec.SqlServer (Stores meanings withRow Happens)

/-- the rows of one program. -/
def rowsBy (i : Nat) (tg : List (Nat × Row)) : List Row := tg.filterMap fun x => if x.1 = i then some x.2 else none

theorem rowsBy_split {i : Nat} {tg : List (Nat × Row)} {l1 l2 : List Row} (h : rowsBy i tg = l1 ++ l2) :
    ∃ tg1 tg2, tg = tg1 ++ tg2 ∧ rowsBy i tg1 = l1 ∧ rowsBy i tg2 = l2 :=
  List.filterMap_eq_append_iff.1 h

theorem rowsBy_last {i : Nat} {tg : List (Nat × Row)} {log : List Row} {row : Row}
    (h : rowsBy i tg = log ++ [row]) : ∃ a b, tg = a ++ (i, row) :: b ∧ rowsBy i a = log ∧
      rowsBy i b = [] := by
  obtain ⟨tg1, tg2, rfl, h1, h2⟩ := rowsBy_split h
  obtain ⟨p, x, q, rfl, h3, h4, h5⟩ := List.filterMap_eq_cons_iff.1 h2
  obtain ⟨j, r⟩ := x
  dsimp only at h4
  split at h4
  next hj =>
    cases h4
    subst hj
    refine ⟨tg1 ++ p, q, by simp, ?_, h5⟩
    unfold rowsBy at h1 ⊢
    rw [List.filterMap_append, h1, List.filterMap_eq_nil_iff.2 h3, List.append_nil]
  · cases h4

mutual
/-- like `inserted_stored`, with rows of other programs in between. -/
theorem inserted_amid (S : SqlServer) (mv : ModelVal) (hk : KeysFit S mv) (hw : Writable mv.intoActive)
    (hs : Spec.ModelDef.Sound (shape mv)) {i : Nat} {tg : List (Nat × Row)} {id : UInt64} {rows rows' : Tables}
    (hi : Spec.Inserted mv.intoActive (rowsBy i tg) id) (hst : Stores S rows (tg.map (·.2)) rows') :
    ∃ a row b rows1, tg = a ++ (i, row) :: b ∧ rowsBy i b = [] ∧ Stores S rows (a.map (·.2)) rows1 ∧
      row.table = (shape mv).table ∧
      Grows (withRow rows1 (shape mv).table (S.record rows1 (shape mv).table (meanings row.fields))) rows' ∧
      (∀ k, Spec.KeyOf mv.intoActive id k →
        S.eq (Spec.meaning k) (S.record rows1 (shape mv).table (meanings row.fields) (shape mv).primary) = true) ∧
      (∀ k, S.auto (shape mv).table = some k → k ∉ Spec.setNames mv.intoActive →
        S.record rows1 (shape mv).table (meanings row.fields) k = S.keyDatum (shape mv).table id) ∧
      ∀ rows'', Grows rows' rows'' → (S.database rows'').Keyed (shape mv) →
        Stored S rows'' mv (S.record rows1 (shape mv).table (meanings row.fields)) := by
  match mv with
  | .mk t p ai plain structs refs =>
    rw [ModelVal.intoActive] at hi
    generalize hlog : rowsBy i tg = log0 at hi
    cases hi with
    | @mk _ _ _ _ _ fs gs log1 fks _ h1 h2 h3 =>
    obtain ⟨a, b, rfl, ha, hb⟩ := rowsBy_last hlog
    rw [List.map_append, List.map_cons] at hst
    obtain ⟨rows1, s1, s2⟩ := stores_split hst
    generalize hz : { table := t, fields := fs ++ gs ++ fks, id := id : Row } = z at s2
    cases s2 with
    | cons _ e2 e3 =>
    subst hz
    have hgrow := grows_stores e3
    dsimp only at e2 hgrow
    have hnd : (Spec.setNames (ModelVal.mk t p ai plain structs refs).intoActive).Nodup := by
      rw [ModelVal.intoActive, Writable] at hw
      rw [ModelVal.intoActive]
      exact hw.2.2.1
    have hwr : WritableRefs (refsIntoActive refs) := by
      rw [ModelVal.intoActive, Writable] at hw
      exact hw.2.2.2.2.2.2
    obtain ⟨o1, o2⟩ := own_row (rows := rows1) hk hnd h1 h2 h3
    have ht : (shape (.mk t p ai plain structs refs)).table = t := by rw [shape]; rfl
    have hp : (shape (.mk t p ai plain structs refs)).primary = p := by rw [shape]; rfl
    have hrefs := shape_refs t p ai plain structs refs
    rw [ht, hp]
    refine ⟨a, { table := t, fields := fs ++ gs ++ fks, id := id }, b, rows1, rfl, hb, s1, rfl, hgrow, ?_, ?_, ?_⟩
    · intro k hkey
      rw [ModelVal.intoActive] at hkey
      rw [KeysFit] at hk
      cases ai with
      | true =>
        have hk' := hk.1.2.2
        cases hkey with
        | own hm =>
          obtain ⟨f, _, hf⟩ := List.mem_map.1 hm
          simp only [Prod.mk.injEq] at hf
          rw [if_pos ⟨trivial, hf.1⟩] at hf
          cases hf.2
        | assigned _ =>
          dsimp only
          rw [o2 rfl, ← e2]
          exact hk' id
      | false =>
        obtain ⟨⟨v, hv⟩, hk2, _⟩ := hk.1
        cases hkey with
        | own hm =>
          have hmem := ((C52_fields _ _ h1).1 _ _).2 hm
          dsimp only
          rw [o1 p k (List.mem_append_left _ (List.mem_append_left _ hmem))]
          exact hk2 k ((plain_into (t := t) h1).1 hmem).1
        | assigned hn =>
          exact absurd (((C52_fields _ _ h1).1 _ _).1 ((plain_into (t := t) h1).2 ⟨hv, by simp⟩)) (hn v)
    · intro k hk' hn
      have hnames : (fs ++ gs ++ fks).map (·.1) =
          Spec.setNames (ModelVal.mk t p ai plain structs refs).intoActive := by
        rw [ModelVal.intoActive, Spec.setNames, List.map_append, List.map_append, plainSet_names h1,
          structSet_names h2, referred_names _ h3]
      rw [← hnames] at hn
      have hgen : S.generates t (meanings (fs ++ gs ++ fks)) = true := by
        unfold Spec.SqlServer.generates
        rw [hk']
        dsimp only
        rw [given_none hn]
      rw [e2]
      unfold Spec.SqlServer.record Spec.SqlServer.insertId
      rw [if_pos ⟨hk', hgen⟩, if_pos hgen]
    · intro rows'' hg hkd path c o hh
      cases hh with
      | plain hc hne =>
        refine ⟨_, follow_nil .., o1 _ _ ?_⟩
        exact List.mem_append_left _ (List.mem_append_left _ ((plain_into (t := t) h1).2 ⟨hc, hne⟩))
      | key _ => exact ⟨_, follow_nil .., _, _, o2 rfl⟩
      | member hs hx =>
        refine ⟨_, follow_nil .., o1 _ _ ?_⟩
        exact List.mem_append_left _ (List.mem_append_right _ (struct_member h2 hs hx))
      | sub hr =>
        rw [KeysFit] at hk
        rw [shape, Spec.ModelDef.Sound] at hs
        rw [shape, Database.Keyed] at hkd
        obtain ⟨f, path', m', k, r', rfl, q1, q2, q3, r'', q4, q5⟩ :=
          referred_amid S refs hk.2 hwr t hs.2.2.2.2.2.2 (ha ▸ h3) s1 rows''
            (Grows.trans (grows_withRow _ _ _) (hgrow.trans hg)) hkd path c o hr
        refine ⟨r'', ?_, q5⟩
        rw [Database.follow, hrefs, q2]
        dsimp only
        rw [o1 f k (List.mem_append_right _ q1)]
        show (match (rows'' m'.table).find? (fun r' => S.eq (Spec.meaning k) (r' m'.primary)) with
          | none => none | some r' => (S.database rows'').follow m' r' path') = _
        rw [q3]
        exact q4

theorem referred_amid (S : SqlServer) (refs : RefVals) (hk : KeysFitRefs S refs)
    (hw : WritableRefs (refsIntoActive refs)) (t : Str) (hs : Spec.RefDefs.Sound t (shapeRefs refs))
    {i : Nat} {tg : List (Nat × Row)} {fks : List Field} {rows rows' : Tables}
    (hi : Spec.Referred (refsIntoActive refs) (rowsBy i tg) fks) (hst : Stores S rows (tg.map (·.2)) rows')
    (rows'' : Tables) (hg : Grows rows' rows'') (hkd : (S.database rows'').KeyedRefs (shapeRefs refs))
    (path : List Str) (c : Str) (o : Option Value) (hh : HoldsRef refs path c o) :
    ∃ f path' m' k r', path = f :: path' ∧ (f, k) ∈ fks ∧ refModel f (shapeRefs refs) = some m' ∧
      (rows'' m'.table).find? (fun r' => S.eq (Spec.meaning k) (r' m'.primary)) = some r' ∧
      ∃ r'', (S.database rows'').follow m' r' path' = some r'' ∧ HoldsRow S r'' c o := by
  match refs with
  | .nil => cases hh
  | .cons f m rest =>
    rw [refsIntoActive] at hi hw
    rw [WritableRefs] at hw
    rw [KeysFitRefs] at hk
    rw [shapeRefs] at hs hkd ⊢
    rw [Spec.RefDefs.Sound] at hs
    rw [Database.KeyedRefs] at hkd
    generalize hlog : rowsBy i tg = log0 at hi
    cases hi with
    | insert i1 i2 i3 =>
    obtain ⟨tg1, tg2, rfl, t1, t2⟩ := rowsBy_split hlog
    rw [List.map_append] at hst
    obtain ⟨rows1, s1, s2⟩ := stores_split hst
    cases hh with
    | here hm =>
      obtain ⟨a, row, b, rows0, h0, _, _, _, h1, h2, _, h3⟩ :=
        inserted_amid S m hk.1 hw.1 hs.2.2.2.2.2.1 (t1 ▸ i1) s1
      have hg1 : Grows rows1 rows'' := (grows_stores s2).trans hg
      obtain ⟨r'', q1, q2⟩ := h3 rows'' hg1 hkd.2.1 _ _ _ hm
      refine ⟨f, _, shape m, _, _, rfl, List.mem_cons_self .., by rw [refModel, if_pos rfl], ?_, r'', q1, q2⟩
      refine find_key hkd.1 ?_ (h2 _ i2)
      refine ((h1.trans hg1) _).subset ?_
      unfold withRow
      rw [if_pos rfl]
      exact List.mem_append_right _ (List.mem_singleton.2 rfl)
    | there hr =>
      obtain ⟨g, path', m', k, r', e, q1, q2, q3, q4⟩ := referred_amid S rest hk.2 hw.2 t hs.2.2.2.2.2.2
        (t2 ▸ i3) s2 rows'' hg hkd.2.2 path c o hr
      refine ⟨g, path', m', k, r', e, List.mem_cons_of_mem _ q1, ?_, q3, q4⟩
      rw [refModel, if_neg]
      · exact q2
      · rintro rfl
        rw [refModel_fresh hs.2.2.2.2.1] at q2
        cases q2
end

/-! ### where the rows are -/

/-- the row of a model that program `i` inserted as the `n`-th of all rows. -/
def Filed (S : SqlServer) (m : ModelDef) (rows : Tables) (tg : List (Nat × Row)) (rows' : Tables) (i : Nat)
    (x : ModelVal × UInt64) (n : Nat) : Prop :=
  ∃ a row b rows1, tg = a ++ (i, row) :: b ∧ a.length = n ∧ Stores S rows (a.map (·.2)) rows1 ∧ row.table = m.table ∧
    Grows (withRow rows1 m.table (S.record rows1 m.table (meanings row.fields))) rows' ∧
    ∀ rows'', Grows rows' rows'' → (S.database rows'').Keyed m →
      Kept S rows'' m x (S.record rows1 m.table (meanings row.fields))

theorem filed_all (S : SqlServer) (m : ModelDef) (hs : Spec.ModelDef.Sound m) (mvs : List ModelVal)
    (hm : ∀ mv ∈ mvs, Insertable S m mv) {i : Nat} {log : List Row} {ids : List UInt64}
    (hi : InsertedAll mvs log ids) {tg : List (Nat × Row)} (hl : rowsBy i tg = log) {rows rows' : Tables}
    (hst : Stores S rows (tg.map (·.2)) rows') :
    ∃ ns : List Nat, ns.Nodup ∧ List.Forall₂ (Filed S m rows tg rows' i) (mvs.zip ids) ns := by
  induction hi generalizing tg rows with
  | nil => exact ⟨[], .nil, .nil⟩
  | @cons mv mvs log log' id ids h1 h2 ih =>
    obtain ⟨tg1, tg2, rfl, t1, t2⟩ := rowsBy_split hl
    rw [List.map_append] at hst
    obtain ⟨rows1, s1, s2⟩ := stores_split hst
    obtain ⟨ns, n1, n2⟩ := ih (fun x hx => hm x (List.mem_cons_of_mem _ hx)) t2 s2
    have hmv := hm mv (List.mem_cons_self ..)
    obtain ⟨a, row, b, rows0, e0, _, e1, e2, e3, e4, e5, e6⟩ := inserted_amid S mv hmv.keys hmv.writable
      (by rw [hmv.shape]; exact hs) (t1 ▸ h1) s1
    rw [hmv.shape] at e2 e3 e4 e5 e6
    have hg := grows_stores s2
    refine ⟨a.length :: ns.map (tg1.length + ·), ?_, .cons ?_ ?_⟩
    · rw [List.nodup_cons]
      refine ⟨?_, n1.map fun x y h => by simpa using h⟩
      intro hmem
      obtain ⟨n, _, hn⟩ := List.mem_map.1 hmem
      rw [e0, List.length_append, List.length_cons] at hn
      omega
    · refine ⟨a, row, b ++ tg2, rows0, by rw [e0]; simp, rfl, e1, e2, e3.trans hg, ?_⟩
      intro rows'' hg' hkd
      refine ⟨?_, e6 rows'' (hg.trans hg') hkd, e4, e5⟩
      intro p c hf
      rw [← hmv.shape] at hf
      obtain ⟨o, ho⟩ := field_holds mv hmv.writable p c hf
      obtain ⟨r', h5, _⟩ := e6 rows'' (hg.trans hg') hkd p c o ho
      exact ⟨r', by rw [hmv.shape] at h5; exact h5⟩
    · refine List.forall₂_map_right_iff.2 (n2.imp ?_)
      rintro x n ⟨a', row', b', rows2, f0, f1, f2, f3, f4, f5⟩
      exact ⟨tg1 ++ a', row', b', rows2, by rw [f0]; simp, by rw [List.length_append, f1],
        by rw [List.map_append]; exact stores_append s1 f2, f3, f4, f5⟩

/-- the number of the rows of a table among the first `n`. -/
def placeIn (t : Str) (tg : List (Nat × Row)) (n : Nat) : Nat := (tg.take n).countP fun x => x.2.table = t

theorem stores_length {S : SqlServer} {rows rows' : Tables} {log : List Row} (h : Stores S rows log rows') (t : Str) :
    (rows' t).length = (rows t).length + log.countP fun r => r.table = t := by
  induction h with
  | nil => simp
  | @cons rows row log rows' _ _ _ ih =>
    rw [ih, List.countP_cons]
    unfold withRow
    by_cases ht : t = row.table
    · subst ht
      simp
      omega
    · rw [if_neg ht, if_neg (by simpa using Ne.symm ht)]
      omega

theorem placeIn_lt {t : Str} {a b : List (Nat × Row)} {x : Nat × Row} (hx : x.2.table = t) {n : Nat}
    (hn : a.length < n) : placeIn t (a ++ x :: b) a.length < placeIn t (a ++ x :: b) n := by
  obtain ⟨k, rfl⟩ : ∃ k, n = a.length + (k + 1) := ⟨n - a.length - 1, by omega⟩
  unfold placeIn
  rw [List.take_left' rfl, List.take_length_add_append, List.countP_append, List.take_succ_cons, List.countP_cons,
    if_pos (by simpa using hx)]
  omega

theorem Filed.found {S : SqlServer} {m : ModelDef} {rows : Tables} {tg : List (Nat × Row)} {rows' : Tables} {i : Nat}
    {x : ModelVal × UInt64} {n : Nat} (h : Filed S m rows tg rows' i x n) (hkd : (S.database rows').Keyed m)
    {added : List Rec} (ha : rows' m.table = rows m.table ++ added) :
    ∃ r, added[placeIn m.table tg n]? = some r ∧ Kept S rows' m x r := by
  obtain ⟨a, row, b, rows1, f0, f1, f2, f3, f4, f5⟩ := h
  refine ⟨_, ?_, f5 rows' (Grows.refl _) hkd⟩
  have hlen := stores_length f2 m.table
  have hpl : placeIn m.table tg n = (a.map (·.2)).countP fun r => r.table = m.table := by
    unfold placeIn
    rw [f0, ← f1, List.take_left' rfl, List.countP_map]
    rfl
  rw [hpl]
  obtain ⟨suf, hsuf⟩ := f4 m.table
  unfold withRow at hsuf
  rw [if_pos rfl, ha] at hsuf
  have h1 := congrArg (fun l => l[(rows1 m.table).length]?) hsuf
  have h2 : (rows1 m.table ++ [S.record rows1 m.table (meanings row.fields)] ++ suf)[(rows1 m.table).length]? =
      some (S.record rows1 m.table (meanings row.fields)) := by simp
  have h3 := h1.symm.trans h2
  rw [hlen] at h3
  rwa [List.getElem?_append_right (Nat.le_add_right ..), Nat.add_sub_cancel_left] at h3

theorem subperm_map {α β : Type} (f : α → β) {a b : List α} (h : a.Subperm b) : (a.map f).Subperm (b.map f) := by
  obtain ⟨l, h1, h2⟩ := h
  exact ⟨l.map f, h1.map f, h2.map f⟩

/-- rows at distinct places. -/
theorem places_subperm {added : List Rec} {ps : List Nat} (hp : ps.Nodup) {Q : β → Rec → Prop} {zs : List β}
    (h : List.Forall₂ (fun z p => ∃ r, added[p]? = some r ∧ Q z r) zs ps) :
    ∃ news, news.Subperm added ∧ List.Forall₂ Q zs news := by
  refine ⟨ps.map fun p => added.getD p fun _ => .null, ?_, ?_⟩
  · have h1 : ps.Subperm (List.range added.length) := by
      refine List.subperm_of_subset hp fun p hm => ?_
      obtain ⟨n, hn, rfl⟩ := List.mem_iff_getElem.1 hm
      obtain ⟨h2, h3⟩ := List.forall₂_iff_get.1 h
      obtain ⟨r, hr, _⟩ := h3 n (h2 ▸ hn) hn
      rw [List.mem_range]
      exact (List.getElem?_eq_some_iff.1 hr).1
    have h2 := subperm_map (fun p => added.getD p fun _ => .null) h1
    have h3 : (List.range added.length).map (fun p => added.getD p fun _ => Spec.Datum.null) = added := by
      refine List.ext_getElem (by simp) fun n h4 h5 => ?_
      simp [List.getElem?_eq_getElem h5]
    rwa [h3] at h2
  · refine List.forall₂_map_right_iff.2 (h.imp ?_)
    rintro z p ⟨r, hr, hq⟩
    rw [List.getD_eq_getElem?_getD, hr]
    exact hq

/-! ### programs that only insert -/

/-- a program that inserts models. -/
def insertsOf (mvs : List ModelVal) : List StoreJob := mvs.map fun mv => .insert mv.intoActive

theorem jobDone_rows {m : ActiveModel} {h : List StoreEvent} {id : UInt64} (hd : Spec.JobDone (.insert m) h id) :
    ∃ log, h = log.map .row ∧ Spec.Inserted m log id := by
  cases hd with
  | insert hi => exact ⟨_, rfl, hi⟩

theorem jobsDone_rows {js : List StoreJob} {h : List StoreEvent} {ids : List UInt64} (hd : Spec.JobsDone js h ids)
    (hj : ∀ j ∈ js, ∃ m, j = .insert m) : ∀ e ∈ h, ∃ r, e = .row r := by
  induction hd with
  | nil => simp
  | cons h1 _ ih =>
    obtain ⟨m, rfl⟩ := hj _ (List.mem_cons_self ..)
    obtain ⟨log, rfl, _⟩ := jobDone_rows h1
    intro e he
    rcases List.mem_append.1 he with he | he
    · obtain ⟨r, _, rfl⟩ := List.mem_map.1 he
      exact ⟨r, rfl⟩
    · exact ih (fun j hm => hj j (List.mem_cons_of_mem _ hm)) e he

theorem jobsAt_rows {js : List StoreJob} {h : List StoreEvent} {s : Spec.StoreStep} (hd : Spec.JobsAt js h s)
    (hj : ∀ j ∈ js, ∃ m, j = .insert m) : ∀ e ∈ h, ∃ r, e = .row r := by
  induction hd with
  | here h1 =>
    obtain ⟨m, rfl⟩ := hj _ (List.mem_cons_self ..)
    cases h1 with
    | insert hb =>
      intro e he
      obtain ⟨r, _, rfl⟩ := List.mem_map.1 he
      exact ⟨r, rfl⟩
  | later h1 _ ih =>
    obtain ⟨m, rfl⟩ := hj _ (List.mem_cons_self ..)
    obtain ⟨log, rfl, _⟩ := jobDone_rows h1
    intro e he
    rcases List.mem_append.1 he with he | he
    · obtain ⟨r, _, rfl⟩ := List.mem_map.1 he
      exact ⟨r, rfl⟩
    · exact ih (fun j hm => hj j (List.mem_cons_of_mem _ hm)) e he

theorem insertedAll_of {mvs : List ModelVal} {h : List StoreEvent} {ids : List UInt64}
    (hd : Spec.JobsDone (insertsOf mvs) h ids) : ∃ log, h = log.map .row ∧ InsertedAll mvs log ids := by
  generalize hjs : insertsOf mvs = js at hd
  induction hd generalizing mvs with
  | nil =>
    cases mvs with
    | nil => exact ⟨[], rfl, .nil⟩
    | cons mv mvs => cases hjs
  | cons h1 _ ih =>
    cases mvs with
    | nil => cases hjs
    | cons mv mvs =>
      cases hjs
      obtain ⟨log, rfl, h2⟩ := jobDone_rows h1
      obtain ⟨log', rfl, h3⟩ := ih rfl
      exact ⟨log ++ log', by rw [List.map_append], .cons h2 h3⟩

theorem tagged {S : SqlServer} {rows rows' : Tables} {h : List (Nat × StoreEvent)} (hh : Happens S rows h rows')
    (hr : ∀ e ∈ h, ∃ r, e.2 = .row r) : ∃ tg : List (Nat × Row), h = tg.map (fun x => (x.1, .row x.2)) ∧
      Stores S rows (tg.map (·.2)) rows' := by
  induction hh with
  | nil => exact ⟨[], rfl, .nil⟩
  | @row rows i row h rows' h1 h2 _ ih =>
    obtain ⟨tg, rfl, k⟩ := ih fun e he => hr e (List.mem_cons_of_mem _ he)
    exact ⟨(i, row) :: tg, rfl, .cons h1 h2 k⟩
  | change =>
    obtain ⟨r, h⟩ := hr _ (List.mem_cons_self ..)
    cases h

theorem eventsBy_tagged (i : Nat) (tg : List (Nat × Row)) :
    eventsBy i (tg.map fun x => (x.1, .row x.2)) = (rowsBy i tg).map .row := by
  unfold Spec.eventsBy rowsBy
  rw [List.filterMap_map, List.map_filterMap]
  congr 1
  funext x
  dsimp only [Function.comp_apply]
  split <;> rfl

/-- what happened, if the programs only insert. -/
theorem C107_inserts (S : SqlServer) (jobs : Nat → List StoreJob) (hj : ∀ i, ∀ j ∈ jobs i, j.Fits)
    (hins : ∀ i, ∀ j ∈ jobs i, ∃ m, j = .insert m) (rows : Tables) (sched : List Nat) (x : StoreSystem)
    (hx : x = (StoreSystem.started rows jobs).go S sched) :
    ∃ tg : List (Nat × Row), x.hist = tg.map (fun e => (e.1, .row e.2)) ∧ Stores S rows (tg.map (·.2)) x.rows ∧
      ∀ i mvs ids, jobs i = insertsOf mvs → x.outcome i = some (.ok ids) → InsertedAll mvs (rowsBy i tg) ids := by
  obtain ⟨h1, h2⟩ := C107_history S jobs hj rows sched x hx
  have hr : ∀ e ∈ x.hist, ∃ r, e.2 = .row r := by
    intro e he
    have hm : e.2 ∈ eventsBy e.1 x.hist := by
      unfold Spec.eventsBy
      exact List.mem_filterMap.2 ⟨e, he, by simp⟩
    have h := h2 e.1
    match x.outcome e.1, h with
    | some (.ok ids), h => exact jobsDone_rows h (hins _) _ hm
    | some (.error _), ⟨_, _, _, _, _, _, _, h, _⟩ => exact jobsAt_rows h (hins _) _ hm
    | none, ⟨_, h⟩ => exact jobsAt_rows h (hins _) _ hm
  obtain ⟨tg, t1, t2⟩ := tagged h1 hr
  refine ⟨tg, t1, t2, fun i mvs ids hjs ho => ?_⟩
  have h := h2 i
  rw [ho, hjs, t1, eventsBy_tagged] at h
  obtain ⟨log, h3, h4⟩ := insertedAll_of h
  have : rowsBy i tg = log := by
    refine List.map_injective_iff.2 ?_ h3
    intro a b hab
    cases hab
    rfl
  rw [this]
  exact h4

/-- the rows of the programs are at different places. -/
theorem filed_kept (S : SqlServer) (m : ModelDef) {rows rows' : Tables} {tg : List (Nat × Row)}
    (t2 : Stores S rows (tg.map (·.2)) rows') (hkd : (S.database rows').Keyed m) (progs : List Nat) (hp : progs.Nodup)
    (zs : Nat → List (ModelVal × UInt64))
    (hm : ∀ i ∈ progs, ∃ ns : List Nat, ns.Nodup ∧ List.Forall₂ (Filed S m rows tg rows' i) (zs i) ns) :
    ∃ added news, rows' m.table = rows m.table ++ added ∧ news.Subperm added ∧
      List.Forall₂ (Kept S rows' m) (progs.flatMap zs) news := by
  obtain ⟨added, ha⟩ := grows_stores t2 m.table
  have hns : ∃ ns : List Nat, ns.Nodup ∧
      List.Forall₂ (fun z n => ∃ i ∈ progs, Filed S m rows tg rows' i z n)
        (progs.flatMap zs) ns := by
    clear hkd
    induction progs with
    | nil => exact ⟨[], .nil, .nil⟩
    | cons i progs ih =>
      rw [List.nodup_cons] at hp
      obtain ⟨ns, n1, n2⟩ := ih hp.2 fun k hk => hm k (List.mem_cons_of_mem _ hk)
      obtain ⟨ns', k1, k2⟩ := hm i (List.mem_cons_self ..)
      refine ⟨ns' ++ ns, ?_, ?_⟩
      · rw [List.nodup_append]
        refine ⟨k1, n1, ?_⟩
        rintro n hn1 _ hn2 rfl
        obtain ⟨p, hp1, rfl⟩ := List.mem_iff_getElem.1 hn1
        obtain ⟨q, hq1, hq2⟩ := List.mem_iff_getElem.1 hn2
        obtain ⟨l1, l2⟩ := List.forall₂_iff_get.1 k2
        obtain ⟨l3, l4⟩ := List.forall₂_iff_get.1 n2
        obtain ⟨a, row, b, _, e1, e2, _⟩ := l2 p (l1 ▸ hp1) hp1
        obtain ⟨k, hk, a', row', b', _, e3, e4, _⟩ := l4 q (l3 ▸ hq1) hq1
        simp only [List.get_eq_getElem] at e2 e4
        rw [e1] at e3
        obtain ⟨_, e5⟩ := List.append_inj e3 (by rw [e2, e4, hq2])
        cases e5
        exact hp.1 hk
      · rw [List.flatMap_cons]
        refine List.rel_append (k2.imp fun z n h => ⟨i, List.mem_cons_self .., h⟩)
          (n2.imp fun z n ⟨k, hk, h⟩ => ⟨k, List.mem_cons_of_mem _ hk, h⟩)
  obtain ⟨ns, n1, n2⟩ := hns
  have hps : (ns.map (placeIn m.table tg)).Nodup := by
    refine List.Nodup.map_on ?_ n1
    intro n hn n' hn' he
    have hfiled : ∀ n ∈ ns, ∃ a x b, tg = a ++ x :: b ∧ a.length = n ∧ x.2.table = m.table := by
      intro n hn
      obtain ⟨p, hp1, rfl⟩ := List.mem_iff_getElem.1 hn
      obtain ⟨l1, l2⟩ := List.forall₂_iff_get.1 n2
      obtain ⟨k, hk, a, row, b, _, e1, e2, _, e3, _⟩ := l2 p (l1 ▸ hp1) hp1
      exact ⟨a, _, b, e1, e2, e3⟩
    obtain ⟨a, y, b, e1, e2, e3⟩ := hfiled n hn
    obtain ⟨a', y', b', e1', e2', e3'⟩ := hfiled n' hn'
    rcases Nat.lt_trichotomy n n' with h | h | h
    · have := placeIn_lt (a := a) (b := b) e3 (n := n') (by omega)
      rw [← e1, e2] at this
      omega
    · exact h
    · have := placeIn_lt (a := a') (b := b') e3' (n := n) (by omega)
      rw [← e1', e2'] at this
      omega
  obtain ⟨news, w1, w2⟩ := places_subperm (added := added) (Q := Kept S rows' m) hps
    (List.forall₂_map_right_iff.2 (n2.imp fun z n ⟨i, _, h⟩ => h.found hkd ha.symm))
  exact ⟨added, news, ha.symm, w1, w2⟩

/-- Rows are only added.  Among those added to the table of a type of models is one for each model of that type that was
inserted by one of the programs that have ended well: one of its own, which holds its values and its key, and from which
the references lead to the values of the models that were given with it. -/
theorem C107_kept (S : SqlServer) (jobs : Nat → List StoreJob) (hj : ∀ i, ∀ j ∈ jobs i, j.Fits)
    (hins : ∀ i, ∀ j ∈ jobs i, ∃ m, j = .insert m) (rows : Tables) (sched : List Nat) (x : StoreSystem)
    (hx : x = (StoreSystem.started rows jobs).go S sched) (m : ModelDef) (hs : Spec.ModelDef.Sound m)
    (hkd : (S.database x.rows).Keyed m) (progs : List Nat) (hp : progs.Nodup) (mvs : Nat → List ModelVal)
    (ids : Nat → List UInt64)
    (hm : ∀ i ∈ progs, jobs i = insertsOf (mvs i) ∧ (∀ mv ∈ mvs i, Insertable S m mv) ∧
      x.outcome i = some (.ok (ids i))) :
    ∃ added news, x.rows m.table = rows m.table ++ added ∧ news.Subperm added ∧
      List.Forall₂ (Kept S x.rows m) (progs.flatMap fun i => (mvs i).zip (ids i)) news := by
  obtain ⟨tg, t1, t2, t3⟩ := C107_inserts S jobs hj hins rows sched x hx
  refine filed_kept S m t2 hkd progs hp _ fun i hi => ?_
  obtain ⟨m1, m2, m3⟩ := hm i hi
  exact filed_all S m hs (mvs i) m2 (t3 i _ _ m1 m3) rfl t2

open Classical in
/-- a query finds what is kept. -/
theorem kept_found {X : Type} (S : SqlServer) (m : ModelDef) (hs : Spec.ModelDef.Sound m) (tab : Tables)
    (hkd : (S.database tab).Keyed m) (zs : List (ModelVal × UInt64)) (hshape : ∀ z ∈ zs, shape z.1 = m)
    {news : List Rec} (hsub0 : news.Subperm (tab m.table)) (e3 : List.Forall₂ (Kept S tab m) zs news)
    (fp : FloatParse) (conv : List Str × Str → Value → Out ParseError X) (c : Conn)
    (ts : List Spec.Tok) (q : Spec.Select) (descs : List Spec.ColDesc) (cols : List Column)
    (rows : List (List Spec.Datum)) (ps : List Bytes) (status warnings : Nat) (r : List Rx)
    (ht : Spec.tokens (buildQuery m) = some ts) (hq : Spec.parseSelect ts = some q)
    (hdc : DescsAs descs cols) (hl : descs.length < 2 ^ 56)
    (hds : descs.map (fun d => (d.table, d.orgName)) = q.items)
    (hperm : rows.Perm ((S.database tab).select q)) (htr : TextRows fp cols rows ps)
    (hconv : ∀ r ∈ tab m.table, ∀ p c v r', HasField m p c →
      (S.database tab).follow m r p = some r' → Spec.meaning v = r' c → ∃ y, conv (p, c) v = .ok y)
    (hc : AtRest S c (rxOf (Spec.framesAll (UInt8.ofNat (Spec.frameCount (0x03 :: utf8 (buildQuery m))))
      (Spec.resultSet descs ps status warnings)) ++ r)) :
    ∃ c1 c2 ok objs recs, query (buildQuery m) c = (.ok { columns := cols, okPacket := none }, c1) ∧
      RSet.collect (textReader fp (buildModel conv m)) { columns := cols, okPacket := none } c1
        = (.ok ({ columns := cols, okPacket := some ok }, objs), c2) ∧
      recs.Perm ((tab m.table).filter fun r => (S.database tab).Complete m r) ∧
      List.Forall₂ (IsObject conv (S.database tab) m) objs recs ∧
      ∃ found, found.Subperm objs ∧ List.Forall₂ (IsModel S conv m) zs found := by
  obtain ⟨c1, objs, c2, ok, recs, g1, g2, g3, g4, g5⟩ := C65_models fp conv m hs
    (S.database tab) hkd c ts q ht hq descs cols rows ps status warnings r hc.pending hc.faults hdc hl hds hperm htr
      hconv hc.rx
  refine ⟨c1, c2, ok, objs, recs, g1, g2, g3, g4, ?_⟩
  have hcomp : ∀ r ∈ news, (S.database tab).Complete m r := by
    intro r hr
    obtain ⟨h1, h2⟩ := List.forall₂_iff_get.1 e3
    obtain ⟨i, hi, rfl⟩ := List.mem_iff_getElem.1 hr
    exact (h2 i (h1 ▸ hi) hi).complete
  have hsub : news.Subperm recs := by
    refine List.Subperm.trans ?_ g3.symm.subperm
    have h2 := hsub0.filter fun r => decide ((S.database tab).Complete m r)
    rwa [List.filter_eq_self.2 fun r hr => by simpa using hcomp r hr] at h2
  obtain ⟨os, o1, o2⟩ := forall₂_subperm g4 hsub
  refine ⟨os, o1, ?_⟩
  clear hsub hcomp o1 hsub0
  induction e3 generalizing os with
  | nil => cases o2; exact .nil
  | cons a _ ih =>
    cases o2 with
    | cons b o2 =>
      exact .cons (isModel_of (hshape _ (List.mem_cons_self ..)) a b)
        (ih (fun z hz => hshape z (List.mem_cons_of_mem _ hz)) _ o2)

/-- **C107**, querying: a query of the type on any connection, answered from the tables in any order, yields each of these
models once, as it was given: its own values, and through its references the values of the models given with it. -/
theorem C107_found {X : Type} (S : SqlServer) (jobs : Nat → List StoreJob) (hj : ∀ i, ∀ j ∈ jobs i, j.Fits)
    (hins : ∀ i, ∀ j ∈ jobs i, ∃ m, j = .insert m) (rows0 : Tables) (sched : List Nat) (x : StoreSystem)
    (hx : x = (StoreSystem.started rows0 jobs).go S sched) (m : ModelDef) (hs : Spec.ModelDef.Sound m)
    (hkd : (S.database x.rows).Keyed m) (progs : List Nat) (hp : progs.Nodup) (mvs : Nat → List ModelVal)
    (ids : Nat → List UInt64)
    (hm : ∀ i ∈ progs, jobs i = insertsOf (mvs i) ∧ (∀ mv ∈ mvs i, Insertable S m mv) ∧
      x.outcome i = some (.ok (ids i)))
    (fp : FloatParse) (conv : List Str × Str → Value → Out ParseError X) (c : Conn)
    (ts : List Spec.Tok) (q : Spec.Select) (descs : List Spec.ColDesc) (cols : List Column)
    (rows : List (List Spec.Datum)) (ps : List Bytes) (status warnings : Nat) (r : List Rx)
    (ht : Spec.tokens (buildQuery m) = some ts) (hq : Spec.parseSelect ts = some q)
    (hdc : DescsAs descs cols) (hl : descs.length < 2 ^ 56)
    (hds : descs.map (fun d => (d.table, d.orgName)) = q.items)
    (hperm : rows.Perm ((S.database x.rows).select q)) (htr : TextRows fp cols rows ps)
    (hconv : ∀ r ∈ x.rows m.table, ∀ p c v r', HasField m p c →
      (S.database x.rows).follow m r p = some r' → Spec.meaning v = r' c → ∃ y, conv (p, c) v = .ok y)
    (hc : AtRest S c (rxOf (Spec.framesAll (UInt8.ofNat (Spec.frameCount (0x03 :: utf8 (buildQuery m))))
      (Spec.resultSet descs ps status warnings)) ++ r)) :
    ∃ c1 c2 ok objs, query (buildQuery m) c = (.ok { columns := cols, okPacket := none }, c1) ∧
      RSet.collect (textReader fp (buildModel conv m)) { columns := cols, okPacket := none } c1
        = (.ok ({ columns := cols, okPacket := some ok }, objs), c2) ∧
      ∃ found, found.Subperm objs ∧
        List.Forall₂ (IsModel S conv m) (progs.flatMap fun i => (mvs i).zip (ids i)) found := by
  obtain ⟨added, news, e1, e2, e3⟩ := C107_kept S jobs hj hins rows0 sched x hx m hs hkd progs hp mvs ids hm
  have hshape : ∀ z ∈ progs.flatMap fun i => (mvs i).zip (ids i), shape z.1 = m := by
    intro z hz
    obtain ⟨i, hi, hz⟩ := List.mem_flatMap.1 hz
    exact ((hm i hi).2.1 _ (List.of_mem_zip hz).1).shape
  obtain ⟨c1, c2, ok, objs, _, g1, g2, _, _, g3⟩ := kept_found S m hs x.rows hkd _ hshape
    (by rw [e1]; exact e2.trans (List.sublist_append_right _ _).subperm) e3 fp conv c ts q descs cols rows ps status
    warnings r ht hq hdc hl hds hperm htr hconv hc
  exact ⟨c1, c2, ok, objs, g1, g2, g3⟩

end Verif

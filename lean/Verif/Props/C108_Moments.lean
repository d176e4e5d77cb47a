import Verif.Props.C107_StoreFound
import Verif.Spec.Moments
import Verif.Proofs.Changed

/-!
# C108 — a query sees whole models, while others are being inserted

In C107 the query comes when the programs have ended.  Here it comes at any time.
-/

namespace Verif

open Spec (SqlServer SqlState Tables Row Field Rec Database Writable WritableRefs Holds HoldsRef HoldsRow KeysFit
  KeysFitRefs refModel shape shapeRefs Insertable InsertedAll HasField StoreJob StoreEvent StoreSystem eventsBy
  parts partsRefs Finished)
open Spec.SqlServer (Stores meanings withRow Happens)

/-! ### rows and the models they belong to -/

/-- every row of the log is the last one of inserting one of these models. -/
def RowsOf (ps : List ModelVal) (log : List Row) : Prop :=
  ∀ a row b, log = a ++ row :: b → ∃ p ∈ ps, ∃ a1 a2 id, a = a1 ++ a2 ∧ Spec.Inserted p.intoActive (a2 ++ [row]) id

theorem RowsOf.nil (ps : List ModelVal) : RowsOf ps [] := by
  intro a row b h
  simp at h

theorem RowsOf.mono {ps qs : List ModelVal} (h : ∀ p ∈ ps, p ∈ qs) {log : List Row} (hr : RowsOf ps log) :
    RowsOf qs log := by
  intro a row b e
  obtain ⟨p, hp, k⟩ := hr a row b e
  exact ⟨p, h p hp, k⟩

theorem RowsOf.append {ps : List ModelVal} {l1 l2 : List Row} (h1 : RowsOf ps l1) (h2 : RowsOf ps l2) :
    RowsOf ps (l1 ++ l2) := by
  intro a row b e
  rcases List.append_eq_append_iff.1 e with ⟨c, e1, e2⟩ | ⟨c, e1, e2⟩
  · obtain ⟨p, hp, a1, a2, id, e3, k⟩ := h2 c row b e2
    exact ⟨p, hp, l1 ++ a1, a2, id, by rw [e1, e3, List.append_assoc], k⟩
  · cases c with
    | nil =>
      rw [List.nil_append] at e2
      rw [List.append_nil] at e1
      obtain ⟨p, hp, a1, a2, id, e3, k⟩ := h2 [] row b e2.symm
      obtain ⟨rfl, rfl⟩ := List.append_eq_nil_iff.1 e3.symm
      exact ⟨p, hp, a, [], id, by simp, k⟩
    | cons x c =>
      rw [List.cons_append] at e2
      cases e2
      exact h1 a row c e1

mutual
theorem inserted_rowsOf (mv : ModelVal) {log : List Row} {id : UInt64} (h : Spec.Inserted mv.intoActive log id) :
    RowsOf (parts mv) log := by
  match mv with
  | .mk t p ai plain structs refs =>
    have h' := h
    rw [ModelVal.intoActive] at h
    cases h with
    | @mk _ _ _ _ _ fs gs log1 fks _ h1 h2 h3 =>
    intro a row b e
    rcases List.append_eq_append_iff.1 e with ⟨c, e1, e2⟩ | ⟨c, e1, e2⟩
    · cases c with
      | nil =>
        rw [List.nil_append] at e2
        cases e2
        refine ⟨_, by rw [parts]; exact List.mem_cons_self .., [], a, id, rfl, ?_⟩
        rw [List.append_nil] at e1
        rw [e1]
        exact h'
      | cons x c =>
        exfalso
        have := congrArg List.length e2
        simp at this
    · cases c with
      | nil =>
        rw [List.nil_append] at e2
        cases e2
        refine ⟨_, by rw [parts]; exact List.mem_cons_self .., [], a, id, rfl, ?_⟩
        rw [List.append_nil] at e1
        rw [← e1]
        exact h'
      | cons x c =>
        rw [List.cons_append] at e2
        cases e2
        obtain ⟨q, hq, k⟩ := referred_rowsOf refs h3 a row c e1
        exact ⟨q, by rw [parts]; exact List.mem_cons_of_mem _ hq, k⟩

theorem referred_rowsOf (refs : RefVals) {log : List Row} {fks : List Field}
    (h : Spec.Referred (refsIntoActive refs) log fks) : RowsOf (partsRefs refs) log := by
  match refs with
  | .nil =>
    rw [refsIntoActive] at h
    cases h
    exact .nil _
  | .cons f m rest =>
    rw [refsIntoActive] at h
    cases h with
    | insert i1 i2 i3 =>
      rw [partsRefs]
      exact ((inserted_rowsOf m i1).mono fun p hp => List.mem_append_left _ hp).append
        ((referred_rowsOf rest i3).mono fun p hp => List.mem_append_right _ hp)
end

mutual
theorem begun_rowsOf (mv : ModelVal) {log : List Row} {next : Except SerializeError (Str × List Field)}
    (h : Spec.Begun mv.intoActive log next) : RowsOf (parts mv) log := by
  match mv with
  | .mk t p ai plain structs refs =>
    rw [ModelVal.intoActive] at h
    cases h with
    | plain _ => exact .nil _
    | structs _ _ => exact .nil _
    | refs _ _ h3 =>
      rw [parts]
      exact (begunRefs_rowsOf refs h3).mono fun p hp => List.mem_cons_of_mem _ hp
    | own _ _ h3 =>
      rw [parts]
      exact (referred_rowsOf refs h3).mono fun p hp => List.mem_cons_of_mem _ hp

theorem begunRefs_rowsOf (refs : RefVals) {log : List Row} {next : Except SerializeError (Str × List Field)}
    (h : Spec.BegunRefs (refsIntoActive refs) log next) : RowsOf (partsRefs refs) log := by
  match refs with
  | .nil =>
    rw [refsIntoActive] at h
    cases h
  | .cons f m rest =>
    rw [refsIntoActive] at h
    rw [partsRefs]
    cases h with
    | inside h1 => exact (begun_rowsOf m h1).mono fun p hp => List.mem_append_left _ hp
    | after i1 i2 =>
      exact ((inserted_rowsOf m i1).mono fun p hp => List.mem_append_left _ hp).append
        ((begunRefs_rowsOf rest i2).mono fun p hp => List.mem_append_right _ hp)
end

theorem mapRow_inj {a b : List Row} (h : a.map StoreEvent.row = b.map StoreEvent.row) : a = b := by
  refine List.map_injective_iff.2 ?_ h
  intro a b hab
  cases hab
  rfl

theorem jobsDone_rowsOf {mvs : List ModelVal} {h : List StoreEvent} {ids : List UInt64}
    (hd : Spec.JobsDone (insertsOf mvs) h ids) {log : List Row} (hl : h = log.map .row) :
    RowsOf (mvs.flatMap parts) log := by
  obtain ⟨log', e, hi⟩ := insertedAll_of hd
  cases mapRow_inj (hl.symm.trans e)
  clear hd hl e
  induction hi with
  | nil => exact .nil _
  | cons h1 _ ih =>
    rw [List.flatMap_cons]
    exact ((inserted_rowsOf _ h1).mono fun p hp => List.mem_append_left _ hp).append
      (ih.mono fun p hp => List.mem_append_right _ hp)

theorem jobsAt_rowsOf {mvs : List ModelVal} {h : List StoreEvent} {s : Spec.StoreStep}
    (hd : Spec.JobsAt (insertsOf mvs) h s) {log : List Row} (hl : h = log.map .row) :
    RowsOf (mvs.flatMap parts) log := by
  generalize hjs : insertsOf mvs = js at hd
  induction hd generalizing mvs log with
  | here h1 =>
    cases mvs with
    | nil => cases hjs
    | cons mv mvs =>
      cases hjs
      cases h1 with
      | insert hb =>
        cases mapRow_inj hl
        rw [List.flatMap_cons]
        exact (begun_rowsOf mv hb).mono fun p hp => List.mem_append_left _ hp
  | later h1 _ ih =>
    cases mvs with
    | nil => cases hjs
    | cons mv mvs =>
      cases hjs
      obtain ⟨log1, rfl, h2⟩ := jobDone_rows h1
      obtain ⟨l1, l2, rfl, e1, e2⟩ := List.map_eq_append_iff.1 hl.symm
      cases mapRow_inj e1
      rw [List.flatMap_cons]
      exact ((inserted_rowsOf mv h2).mono fun p hp => List.mem_append_left _ hp).append
        ((ih e2.symm rfl).mono fun p hp => List.mem_append_right _ hp)

/-! ### the parts of a model -/

mutual
theorem insertable_parts (S : SqlServer) (mv : ModelVal) (hk : KeysFit S mv) (hw : Writable mv.intoActive)
    (hd : Spec.allDistinct mv.intoActive) (hs : Spec.ModelDef.Sound (shape mv)) :
    ∀ p ∈ parts mv, Insertable S (shape p) p ∧ Spec.ModelDef.Sound (shape p) := by
  match mv with
  | .mk t pr ai plain structs refs =>
    intro p hp
    rw [parts] at hp
    rcases List.mem_cons.1 hp with rfl | hp
    · exact ⟨⟨rfl, hk, hw, hd⟩, hs⟩
    · rw [KeysFit] at hk
      rw [ModelVal.intoActive, Writable] at hw
      rw [ModelVal.intoActive, Spec.allDistinct] at hd
      rw [shape, Spec.ModelDef.Sound] at hs
      exact insertable_partsRefs S refs hk.2 hw.2.2.2.2.2.2 hd.2 t hs.2.2.2.2.2.2 p hp

theorem insertable_partsRefs (S : SqlServer) (refs : RefVals) (hk : KeysFitRefs S refs)
    (hw : WritableRefs (refsIntoActive refs)) (hd : Spec.allDistinctRefs (refsIntoActive refs)) (t : Str)
    (hs : Spec.RefDefs.Sound t (shapeRefs refs)) :
    ∀ p ∈ partsRefs refs, Insertable S (shape p) p ∧ Spec.ModelDef.Sound (shape p) := by
  match refs with
  | .nil =>
    intro p hp
    rw [partsRefs] at hp
    cases hp
  | .cons f m rest =>
    intro p hp
    rw [partsRefs] at hp
    rw [KeysFitRefs] at hk
    rw [refsIntoActive, WritableRefs] at hw
    rw [refsIntoActive, Spec.allDistinctRefs] at hd
    rw [shapeRefs, Spec.RefDefs.Sound] at hs
    rcases List.mem_append.1 hp with hp | hp
    · exact insertable_parts S m hk.1 hw.1 hd.1 hs.2.2.2.2.2.1 p hp
    · exact insertable_partsRefs S rest hk.2 hw.2 hd.2 t hs.2.2.2.2.2.2 p hp
end

/-! ### the rows of a table -/

theorem stores_fun {S : SqlServer} {rows a : Tables} {log : List Row} (h : Stores S rows log a) :
    ∀ {b : Tables}, Stores S rows log b → a = b := by
  induction h with
  | nil => intro b h; cases h; rfl
  | cons _ _ _ ih =>
    intro b h
    cases h with
    | cons _ _ h => exact ih h

theorem stores_mem {S : SqlServer} {rows rows' : Tables} {log : List Row} (h : Stores S rows log rows') (t : Str) :
    ∀ r ∈ rows' t, r ∈ rows t ∨ ∃ a row b rows1, log = a ++ row :: b ∧ Stores S rows a rows1 ∧ row.table = t ∧
      r = S.record rows1 t (meanings row.fields) := by
  induction h with
  | nil => exact fun r hr => .inl hr
  | @cons rows row log rows' h1 h2 _ ih =>
    intro r hr
    rcases ih r hr with h | ⟨a, row', b, rows1, e1, e2, e3, e4⟩
    · unfold withRow at h
      split at h
      next ht =>
        subst ht
        rcases List.mem_append.1 h with h | h
        · exact .inl h
        · exact .inr ⟨[], row, log, rows, rfl, .nil, rfl, List.mem_singleton.1 h⟩
      · exact .inl h
    · exact .inr ⟨row :: a, row', b, rows1, by rw [e1]; rfl, .cons h1 h2 e2, e3, e4⟩

theorem rowsBy_append (i : Nat) (a b : List (Nat × Row)) : rowsBy i (a ++ b) = rowsBy i a ++ rowsBy i b :=
  List.filterMap_append

/-- the last row of inserting a model leads along all its references. -/
theorem part_complete (S : SqlServer) (p : ModelVal) (hp : Insertable S (shape p) p)
    (hs : Spec.ModelDef.Sound (shape p)) {i : Nat} {a2 : List (Nat × Row)} {row : Row} {id : UInt64}
    (hi : Spec.Inserted p.intoActive (rowsBy i a2 ++ [row]) id) {rows1 rows' rows2 : Tables}
    (h2 : Stores S rows1 (a2.map (·.2)) rows2)
    (h3 : Stores S rows2 [row] rows') (rows'' : Tables) (hg : Grows rows' rows'')
    (hk : (S.database rows'').Keyed (shape p)) :
    row.table = (shape p).table ∧
    (S.database rows'').Complete (shape p) (S.record rows2 (shape p).table (meanings row.fields)) := by
  have hrow : rowsBy i (a2 ++ [(i, row)]) = rowsBy i a2 ++ [row] := by
    rw [rowsBy_append]
    simp [rowsBy]
  rw [← hrow] at hi
  have hst : Stores S rows1 ((a2 ++ [(i, row)]).map (·.2)) rows' := by
    rw [List.map_append]
    exact stores_append h2 h3
  obtain ⟨x, row', b, rowsx, e0, e1, e2, e3, _, _, _, e4⟩ := inserted_amid S p hp.keys hp.writable hs hi hst
  have hb : b = [] := by
    rcases List.eq_nil_or_concat b with rfl | ⟨b', z, rfl⟩
    · rfl
    · exfalso
      rw [List.concat_eq_append] at e0 e1
      rw [← List.cons_append, ← List.append_assoc] at e0
      obtain ⟨_, e5⟩ := List.append_inj' e0 rfl
      cases e5
      rw [rowsBy_append] at e1
      simp [rowsBy] at e1
  subst hb
  obtain ⟨e5, e6⟩ := List.append_inj' e0 rfl
  cases e6
  cases e5
  cases stores_fun h2 e2
  refine ⟨e3, fun path c hf => ?_⟩
  obtain ⟨o, ho⟩ := field_holds p hp.writable path c hf
  obtain ⟨r', h5, _⟩ := e4 rows'' hg hk path c o ho
  exact ⟨r', h5⟩

/-! ### at any time -/

/-- what happened in a system of programs that insert models. -/
theorem moment (S : SqlServer) (mvs : Nat → List ModelVal) (hf : ∀ i, ∀ mv ∈ mvs i, Insertable S (shape mv) mv)
    (rows : Tables) (sched : List Nat) (x : StoreSystem)
    (hx : x = (StoreSystem.started rows fun i => insertsOf (mvs i)).go S sched) :
    ∃ tg : List (Nat × Row), x.hist = tg.map (fun e => (e.1, .row e.2)) ∧ Stores S rows (tg.map (·.2)) x.rows ∧
      ∀ i, RowsOf ((mvs i).flatMap parts) (rowsBy i tg) := by
  have hj : ∀ i, ∀ j ∈ insertsOf (mvs i), j.Fits := by
    intro i j hj
    obtain ⟨mv, hm, rfl⟩ := List.mem_map.1 hj
    exact ⟨(hf i mv hm).writable, (hf i mv hm).distinct⟩
  have hins : ∀ i, ∀ j ∈ insertsOf (mvs i), ∃ m, j = .insert m := by
    intro i j hj
    obtain ⟨mv, _, rfl⟩ := List.mem_map.1 hj
    exact ⟨_, rfl⟩
  obtain ⟨tg, t1, t2, _⟩ := C107_inserts S (fun i => insertsOf (mvs i)) hj hins rows sched x hx
  obtain ⟨_, h2⟩ := C107_history S (fun i => insertsOf (mvs i)) hj rows sched x hx
  refine ⟨tg, t1, t2, fun i => ?_⟩
  have h := h2 i
  rw [t1, eventsBy_tagged] at h
  match x.outcome i, h with
  | some (.ok ids), h => exact jobsDone_rowsOf h rfl
  | some (.error _), ⟨_, _, _, _, _, _, _, h, _⟩ => exact jobsAt_rowsOf h rfl
  | none, ⟨_, h⟩ => exact jobsAt_rowsOf h rfl

/-- **C108**, no half models: at any time, whatever the programs are doing and wherever they have stopped or failed, the
references of every row lead to rows — if they did before the programs started, and the models that the programs store
in this table are of this type. -/
theorem C108_whole (S : SqlServer) (mvs : Nat → List ModelVal)
    (hf : ∀ i, ∀ mv ∈ mvs i, Insertable S (shape mv) mv ∧ Spec.ModelDef.Sound (shape mv))
    (rows : Tables) (sched : List Nat) (x : StoreSystem)
    (hx : x = (StoreSystem.started rows fun i => insertsOf (mvs i)).go S sched) (m : ModelDef)
    (hm : ∀ i, ∀ mv ∈ mvs i, ∀ p ∈ parts mv, (shape p).table = m.table → shape p = m)
    (hkd : (S.database x.rows).Keyed m) (h0 : ∀ r ∈ rows m.table, (S.database rows).Complete m r) :
    ∀ r ∈ x.rows m.table, (S.database x.rows).Complete m r := by
  obtain ⟨tg, t1, t2, t3⟩ := moment S mvs (fun i mv h => (hf i mv h).1) rows sched x hx
  intro r hr
  rcases stores_mem t2 m.table r hr with h | ⟨a, row, b, rows1, e1, e2, e3, e4⟩
  · intro p c hfld
    obtain ⟨r', h1⟩ := h0 r h p c hfld
    exact ⟨r', follow_grows (grows_stores t2) p m r r' h1⟩
  · obtain ⟨A, tl, rfl, rfl, e5⟩ := List.map_eq_append_iff.1 e1
    obtain ⟨z, B, rfl, rfl, rfl⟩ := List.map_eq_cons_iff.1 e5
    obtain ⟨i, row⟩ := z
    dsimp only at e1 e2 e3 e4 t2
    have hsplit : rowsBy i (A ++ (i, row) :: B) = rowsBy i A ++ row :: rowsBy i B := by
      rw [rowsBy_append]
      simp [rowsBy]
    obtain ⟨p, hp, a1, a2, id, e6, hi⟩ := t3 i _ _ _ hsplit
    obtain ⟨A1, A2, rfl, rfl, rfl⟩ := rowsBy_split e6
    obtain ⟨mv, hmv, hp⟩ := List.mem_flatMap.1 hp
    obtain ⟨hins, hsound⟩ := hf i mv hmv
    obtain ⟨hip, hsp⟩ := insertable_parts S mv hins.keys hins.writable hins.distinct hsound p hp
    rw [List.map_append] at e2
    obtain ⟨rowsA, s1, s2⟩ := stores_split e2
    rw [List.map_append, List.map_cons] at t2
    obtain ⟨rowsx, s3, s4⟩ := stores_split t2
    rw [List.map_append] at s3
    cases stores_fun e2 s3
    rw [← List.singleton_append] at s4
    obtain ⟨rows', s5, s6⟩ := stores_split s4
    have htab : row.table = (shape p).table := by
      cases p
      rw [ModelVal.intoActive] at hi
      generalize hz : rowsBy i A2 ++ [row] = z at hi
      cases hi
      obtain ⟨_, e⟩ := List.append_inj' hz rfl
      cases e
      rw [shape]
      rfl
    have hsh := hm i mv hmv p hp (htab.symm.trans e3)
    have h := (part_complete S p hip hsp hi s2 s5 x.rows (grows_stores s6) (by rw [hsh]; exact hkd)).2
    rw [hsh] at h
    rw [e4]
    exact h

theorem Filed.later {S : SqlServer} {m : ModelDef} {rows rows1 rows' : Tables} {tg1 tg2 : List (Nat × Row)} {i : Nat}
    {x : ModelVal × UInt64} {n : Nat} (h : Filed S m rows tg1 rows1 i x n)
    (h2 : Stores S rows1 (tg2.map (·.2)) rows') : Filed S m rows (tg1 ++ tg2) rows' i x n := by
  obtain ⟨a, row, b, rowsa, e1, e2, e3, e4, e5, e6⟩ := h
  exact ⟨a, row, b ++ tg2, rowsa, by rw [e1]; simp, e2, e3, e4, e5.trans (grows_stores h2),
    fun rows'' hg hk => e6 rows'' ((grows_stores h2).trans hg) hk⟩

/-- what programs have finished is in the table, at any time, however far they are with the rest. -/
theorem C108_sofar (S : SqlServer) (mvs : Nat → List ModelVal) (hf : ∀ i, ∀ mv ∈ mvs i, Insertable S (shape mv) mv)
    (rows : Tables) (sched : List Nat) (x : StoreSystem)
    (hx : x = (StoreSystem.started rows fun i => insertsOf (mvs i)).go S sched) (m : ModelDef)
    (hs : Spec.ModelDef.Sound m) (hkd : (S.database x.rows).Keyed m) (progs : List Nat) (hp : progs.Nodup)
    (fin : Nat → List ModelVal) (ids : Nat → List UInt64)
    (hm : ∀ i ∈ progs, (∀ mv ∈ fin i, Insertable S m mv) ∧ Finished i x.hist (fin i) (ids i)) :
    ∃ added news, x.rows m.table = rows m.table ++ added ∧ news.Subperm added ∧
      List.Forall₂ (Kept S x.rows m) (progs.flatMap fun i => (fin i).zip (ids i)) news := by
  obtain ⟨tg, t1, t2, _⟩ := moment S mvs hf rows sched x hx
  refine filed_kept S m t2 hkd progs hp _ fun i hi => ?_
  obtain ⟨m1, h, rest, e1, hd⟩ := hm i hi
  obtain ⟨log, rfl, hd2⟩ := insertedAll_of hd
  rw [t1, eventsBy_tagged] at e1
  obtain ⟨l1, l2, e2, e3, _⟩ := List.map_eq_append_iff.1 e1
  cases mapRow_inj e3
  obtain ⟨tg1, tg2, rfl, e4, _⟩ := rowsBy_split e2
  rw [List.map_append] at t2
  obtain ⟨rows1, s1, s2⟩ := stores_split t2
  obtain ⟨ns, n1, n2⟩ := filed_all S m hs (fin i) m1 hd2 e4 s1
  exact ⟨ns, n1, n2.imp fun z n h => h.later s2⟩

/-- a program that has ended without error has finished all its inserts. -/
theorem C108_done (S : SqlServer) (mvs : Nat → List ModelVal) (hf : ∀ i, ∀ mv ∈ mvs i, Insertable S (shape mv) mv)
    (rows : Tables) (sched : List Nat) (x : StoreSystem)
    (hx : x = (StoreSystem.started rows fun i => insertsOf (mvs i)).go S sched) (i : Nat) (ids : List UInt64)
    (ho : x.outcome i = some (.ok ids)) : Finished i x.hist (mvs i) ids := by
  have hj : ∀ i, ∀ j ∈ insertsOf (mvs i), j.Fits := by
    intro i j hj
    obtain ⟨mv, hm, rfl⟩ := List.mem_map.1 hj
    exact ⟨(hf i mv hm).writable, (hf i mv hm).distinct⟩
  have h := (C107_history S (fun i => insertsOf (mvs i)) hj rows sched x hx).2 i
  rw [ho] at h
  exact ⟨_, [], by simp, h⟩

open Classical in
/-- **C108**, querying at any time: a query on any connection, answered from the tables as they are, yields exactly one
model for every row of the table, and among them each model that a program has finished inserting: as it was given, its
own values, and through its references the values of the models given with it. -/
theorem C108_query {X : Type} (S : SqlServer) (mvs : Nat → List ModelVal)
    (hf : ∀ i, ∀ mv ∈ mvs i, Insertable S (shape mv) mv ∧ Spec.ModelDef.Sound (shape mv))
    (rows0 : Tables) (sched : List Nat) (x : StoreSystem)
    (hx : x = (StoreSystem.started rows0 fun i => insertsOf (mvs i)).go S sched) (m : ModelDef)
    (hs : Spec.ModelDef.Sound m)
    (hm : ∀ i, ∀ mv ∈ mvs i, ∀ p ∈ parts mv, (shape p).table = m.table → shape p = m)
    (hkd : (S.database x.rows).Keyed m) (h0 : ∀ r ∈ rows0 m.table, (S.database rows0).Complete m r)
    (progs : List Nat) (hp : progs.Nodup) (fin : Nat → List ModelVal) (ids : Nat → List UInt64)
    (hfin : ∀ i ∈ progs, (∀ mv ∈ fin i, Insertable S m mv) ∧ Finished i x.hist (fin i) (ids i))
    (fp : FloatParse) (conv : List Str × Str → Value → Out ParseError X) (c : Conn)
    (ts : List Spec.Tok) (q : Spec.Select) (descs : List Spec.ColDesc) (cols : List Column)
    (rows : List (List Spec.Datum)) (ps : List Bytes) (status warnings : Nat) (r : List Rx)
    (ht : Spec.tokens (buildQuery m) = some ts) (hq : Spec.parseSelect ts = some q)
    (hdc : DescsAs descs cols) (hl : descs.length < 2 ^ 56)
    (hds : descs.map (fun d => (d.table, d.orgName)) = q.items)
    (hperm : rows.Perm ((S.database x.rows).select q)) (htr : TextRows fp cols rows ps)
    (hconv : ∀ r ∈ x.rows m.table, ∀ p c v r', HasField m p c →
      (S.database x.rows).follow m r p = some r' → Spec.meaning v = r' c → ∃ y, conv (p, c) v = .ok y)
    (hc : AtRest S c (rxOf (Spec.framesAll (UInt8.ofNat (Spec.frameCount (0x03 :: utf8 (buildQuery m))))
      (Spec.resultSet descs ps status warnings)) ++ r)) :
    ∃ c1 c2 ok objs recs, query (buildQuery m) c = (.ok { columns := cols, okPacket := none }, c1) ∧
      RSet.collect (textReader fp (buildModel conv m)) { columns := cols, okPacket := none } c1
        = (.ok ({ columns := cols, okPacket := some ok }, objs), c2) ∧
      recs.Perm (x.rows m.table) ∧ List.Forall₂ (IsObject conv (S.database x.rows) m) objs recs ∧
      ∃ found, found.Subperm objs ∧
        List.Forall₂ (IsModel S conv m) (progs.flatMap fun i => (fin i).zip (ids i)) found := by
  obtain ⟨added, news, e1, e2, e3⟩ :=
    C108_sofar S mvs (fun i mv h => (hf i mv h).1) rows0 sched x hx m hs hkd progs hp fin ids hfin
  have hshape : ∀ z ∈ progs.flatMap fun i => (fin i).zip (ids i), shape z.1 = m := by
    intro z hz
    obtain ⟨i, hi, hz⟩ := List.mem_flatMap.1 hz
    exact ((hfin i hi).1 _ (List.of_mem_zip hz).1).shape
  obtain ⟨c1, c2, ok, objs, recs, g1, g2, g3, g4, g5⟩ := kept_found S m hs x.rows hkd _ hshape
    (by rw [e1]; exact e2.trans (List.sublist_append_right _ _).subperm) e3 fp conv c ts q descs cols rows ps status
    warnings r ht hq hdc hl hds hperm htr hconv hc
  have hw := C108_whole S mvs hf rows0 sched x hx m hm hkd h0
  rw [List.filter_eq_self.2 fun r hr => by simpa using hw r hr] at g3
  exact ⟨c1, c2, ok, objs, recs, g1, g2, g3, g4, g5⟩

theorem turn_hist (S : SqlServer) (x : StoreSystem) (i : Nat) : x.hist <+: (x.turn S i).hist := by
  unfold Spec.StoreSystem.turn
  split
  · split
    · exact List.prefix_rfl
    · exact List.prefix_append ..
  · exact List.prefix_rfl

theorem go_hist (S : SqlServer) (s : List Nat) : ∀ x : StoreSystem, x.hist <+: (x.go S s).hist := by
  induction s with
  | nil => exact fun x => List.prefix_rfl
  | cons i s ih => exact fun x => (turn_hist S x i).trans (ih _)

/-- **C108**, later: what there was is still there, in front of what has been added, the references of a row lead to the
same rows as before, and what was finished is finished.  So a query returns again what an earlier one returned. -/
theorem C108_later (S : SqlServer) (mvs : Nat → List ModelVal) (hf : ∀ i, ∀ mv ∈ mvs i, Insertable S (shape mv) mv)
    (rows : Tables) (s1 s2 : List Nat) (x y : StoreSystem)
    (hx : x = (StoreSystem.started rows fun i => insertsOf (mvs i)).go S s1)
    (hy : y = (StoreSystem.started rows fun i => insertsOf (mvs i)).go S (s1 ++ s2)) :
    (∀ t, ∃ added, y.rows t = x.rows t ++ added) ∧
    (∀ m r p r', (S.database x.rows).follow m r p = some r' → (S.database y.rows).follow m r p = some r') ∧
    ∀ i fin ids, Finished i x.hist fin ids → Finished i y.hist fin ids := by
  obtain ⟨tg1, t1, t2, _⟩ := moment S mvs hf rows s1 x hx
  obtain ⟨tg2, u1, u2, _⟩ := moment S mvs hf rows (s1 ++ s2) y hy
  have hyx : y = x.go S s2 := by
    rw [hy, hx]
    unfold Spec.StoreSystem.go
    rw [List.foldl_append]
  obtain ⟨h, hh⟩ := go_hist S s2 x
  rw [← hyx] at hh
  have hg : Grows x.rows y.rows := by
    rw [t1, u1] at hh
    obtain ⟨a, b, rfl, e1, _⟩ := List.map_eq_append_iff.1 hh.symm
    have : a = tg1 := by
      refine List.map_injective_iff.2 ?_ e1
      rintro ⟨i, r⟩ ⟨j, r'⟩ hab
      cases hab
      rfl
    subst this
    rw [List.map_append] at u2
    obtain ⟨rows1, v1, v2⟩ := stores_split u2
    cases stores_fun t2 v1
    exact grows_stores v2
  refine ⟨fun t => ?_, fun m r p r' h => follow_grows hg p m r r' h, ?_⟩
  · obtain ⟨added, ha⟩ := hg t
    exact ⟨added, ha.symm⟩
  · rintro i fin ids ⟨h1, rest, e1, e2⟩
    refine ⟨h1, rest ++ eventsBy i h, ?_, e2⟩
    rw [← hh, eventsBy_append, e1, List.append_assoc]

namespace C108

/-- two programs, each with a pet and its owner, after `s`. -/
def at' (s : List Nat) : StoreSystem :=
  (StoreSystem.started C66.empty.rows fun i => insertsOf (if i = 0 then [C67.pet] else if i = 1 then [C97.cat] else [])).go
    C66.server s

/-- what a query of pets is told then. -/
def told (s : List Nat) : Option (List (List Spec.Datum)) :=
  ((Spec.tokens (buildQuery (shape C97.cat))).bind Spec.parseSelect).map
    ((C66.server.database (at' s).rows).select ·)

/-- the pet of the second program, while that of the first is not there, but its owner is; then both. -/
example : ((at' [0, 1, 1]).rows "person".toList).length = 2 ∧ told [0, 1] = some [] ∧
    told [0, 1, 1] = some [[.int 4 true 31, .str [75], .int 4 true 62, .str [66]]] ∧
    told [0, 1, 1, 0] = some [[.int 4 true 31, .str [75], .int 4 true 62, .str [66]],
      [.int 4 true 32, .str [82], .int 4 true 61, .str [65]]] := by
  refine ⟨?_, ?_, ?_, ?_⟩ <;> decide +kernel

/-- the second program had finished by then. -/
example : (at' [0, 1, 1]).outcome 1 = some (.ok [31]) ∧ (at' [0, 1, 1]).outcome 0 = none := by
  refine ⟨?_, ?_⟩ <;> decide +kernel

/-- the owner is part of the pet, and only the pet is stored in the table of pets. -/
example : parts C97.cat = [C97.cat, .mk "person".toList "id".toList true
      [("id".toList, .ok (.uint 0)), ("name".toList, .ok (.bytes [66]))] [] .nil] ∧
    ∀ p ∈ parts C97.cat, (shape p).table = "pet".toList → shape p = shape C67.pet := by
  have h : parts C97.cat = [C97.cat, .mk "person".toList "id".toList true
      [("id".toList, .ok (.uint 0)), ("name".toList, .ok (.bytes [66]))] [] .nil] := by
    simp [C97.cat, parts, partsRefs]
  refine ⟨h, ?_⟩
  rw [h]
  intro p hp ht
  rcases List.mem_cons.1 hp with rfl | hp
  · rfl
  · rw [List.mem_singleton.1 hp, shape] at ht
    exact absurd ht (by decide)

end C108

end Verif

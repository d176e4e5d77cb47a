import Verif.Spec.RoundTrip
import Verif.Proofs.Relational
import Verif.Props.C66_Stored

/-! # Lemmas: rows of an inserted model -/

namespace Verif

open Spec (SqlServer Tables Row Field Rec Database Writable WritableRefs Holds HoldsRef HoldsRow KeysFit
  KeysFitRefs refModel shape shapeRefs)
open Spec.SqlServer (Stores meanings withRow)

theorem plainSet_names {plain fs} (h : Spec.PlainSet plain fs) :
    fs.map (·.1) = (plain.filterMap fun f => f.2.map fun _ => f.1) := by
  induction h with
  | nil => rfl
  | unset _ ih => simpa using ih
  | set _ ih => simp [ih]

theorem structSet_names {structs gs} (h : Spec.StructSet structs gs) :
    gs.map (·.1) = (structs.flatMap fun s => (s.2.getD []).map fun x => s.1 ++ '_' :: x.1) := by
  induction h with
  | nil => rfl
  | unset _ ih => simpa using ih
  | set ms _ ih => simp [ih, Function.comp_def]

theorem referred_names : ∀ (r : ActiveRefs) {log : List Row} {fks : List Field},
    Spec.Referred r log fks → fks.map (·.1) = Spec.refNames r
  | .nil, _, _, .nil => rfl
  | .unset _ r, _, _, .unset h => referred_names r h
  | .set f _ r, _, _, .set h => congrArg (f :: ·) (referred_names r h)
  | .insert f _ r, _, _, .insert _ _ h => congrArg (f :: ·) (referred_names r h)

theorem struct_member {structs : List (Str × List (Str × Out SerializeError Value))} {gs : List Field}
    (h : Spec.StructSet (structs.map fun s => (s.1, some s.2)) gs) {s x : Str}
    {ms : List (Str × Out SerializeError Value)} {v : Value} (hs : (s, ms) ∈ structs) (hx : (x, .ok v) ∈ ms) :
    (s ++ '_' :: x, v) ∈ gs := by
  induction structs generalizing gs with
  | nil => cases hs
  | cons a structs ih =>
    rw [List.map_cons] at h
    generalize he : (a.1, some a.2) = z at h
    cases h with
    | unset _ => cases he
    | set ms' h' =>
      obtain ⟨a1, a2⟩ := a
      cases he
      rw [List.mem_append]
      rcases List.mem_cons.1 hs with he | hs
      · cases he
        obtain ⟨y, hy, hye⟩ := List.mem_map.1 hx
        cases hye
        exact .inl (List.mem_map.2 ⟨y, hy, rfl⟩)
      · exact .inr (ih h' hs)

theorem given_mem {fields : List Field} (hn : (fields.map (·.1)).Nodup) {c : Str} {v : Value}
    (h : (c, v) ∈ fields) : Spec.SqlServer.given (meanings fields) c = some (Spec.meaning v) := by
  induction fields with
  | nil => cases h
  | cons f fs ih =>
    rw [List.map_cons, List.nodup_cons] at hn
    unfold Spec.SqlServer.given meanings
    rw [List.map_cons]
    rcases List.mem_cons.1 h with rfl | h
    · rw [List.find?_cons_of_pos (by simp)]
      rfl
    · rw [List.find?_cons_of_neg]
      · exact ih hn.2 h
      · intro he
        simp only [decide_eq_true_eq] at he
        apply hn.1
        rw [he]
        exact List.mem_map.2 ⟨_, h, rfl⟩

theorem given_none {fields : List Field} {c : Str} (h : c ∉ fields.map (·.1)) :
    Spec.SqlServer.given (meanings fields) c = none := by
  unfold Spec.SqlServer.given meanings
  rw [List.find?_eq_none.2, Option.map_none]
  intro x hx he
  obtain ⟨f, hf, rfl⟩ := List.mem_map.1 hx
  simp only [decide_eq_true_eq] at he
  exact h (List.mem_map.2 ⟨f, hf, he⟩)

/-! ### tables only grow -/

def Grows (rows rows' : Tables) : Prop := ∀ t, rows t <+: rows' t

theorem Grows.refl (rows : Tables) : Grows rows rows := fun _ => List.prefix_rfl

theorem Grows.trans {a b c : Tables} (h1 : Grows a b) (h2 : Grows b c) : Grows a c :=
  fun t => (h1 t).trans (h2 t)

theorem grows_withRow (rows : Tables) (t : Str) (r : Rec) : Grows rows (withRow rows t r) := by
  intro t'
  unfold withRow
  by_cases h : t' = t
  · rw [if_pos h, h]
    exact List.prefix_append ..
  · rw [if_neg h]
    exact List.prefix_rfl

theorem grows_stores {S : SqlServer} {rows rows' : Tables} {log : List Row} (h : Stores S rows log rows') :
    Grows rows rows' := by
  induction h with
  | nil => exact .refl _
  | cons _ _ _ ih => exact Grows.trans (grows_withRow _ _ _) ih

theorem stores_split {S : SqlServer} {rows rows2 : Tables} {a b : List Row}
    (h : Stores S rows (a ++ b) rows2) : ∃ rows1, Stores S rows a rows1 ∧ Stores S rows1 b rows2 := by
  induction a generalizing rows with
  | nil => exact ⟨rows, .nil, h⟩
  | cons x a ih =>
    cases h with
    | cons h1 h2 h3 =>
      obtain ⟨rows1, k1, k2⟩ := ih h3
      exact ⟨rows1, .cons h1 h2 k1, k2⟩

/-- in a table with a key the row found is the only one. -/
theorem find_key {eq : Spec.Datum → Spec.Datum → Bool} {rows : List Rec} {k : Str}
    (hp : rows.Pairwise fun a b => ∀ x, ¬(eq x (a k) = true ∧ eq x (b k) = true)) {x : Spec.Datum} {r : Rec}
    (hr : r ∈ rows) (he : eq x (r k) = true) : rows.find? (fun r' => eq x (r' k)) = some r := by
  induction rows with
  | nil => cases hr
  | cons a rows ih =>
    rw [List.pairwise_cons] at hp
    rcases List.mem_cons.1 hr with rfl | hr
    · rw [List.find?_cons_of_pos (p := fun r' : Rec => eq x (r' k)) he]
    · rw [List.find?_cons_of_neg]
      · exact ih hp.2 hr
      · intro ha
        exact hp.1 r hr x ⟨ha, he⟩

/-! ### the row of a model -/

theorem plain_into {t p : Str} {ai : Bool} {plain : List (Str × Out SerializeError Value)} {fs : List Field}
    (h : Spec.PlainSet (plain.map fun f => (f.1, if ai ∧ f.1 = p then none else some f.2)) fs) {c : Str}
    {v : Value} : (c, v) ∈ fs ↔ (c, .ok v) ∈ plain ∧ ¬(ai = true ∧ c = p) := by
  rw [(C52_fields _ _ h).1]
  have := (C52_whole t p ai plain [] .nil).2.1 c (.ok v)
  rw [← this]
  rfl

/-- what an insert of the model's own fields stores. -/
theorem own_row {S : SqlServer} {t p : Str} {ai : Bool} {plain : List (Str × Out SerializeError Value)}
    {structs : List (Str × List (Str × Out SerializeError Value))} {refs : RefVals} {rows : Tables}
    {fs gs fks : List Field} {log : List Row}
    (hk : KeysFit S (.mk t p ai plain structs refs))
    (hnd : (Spec.setNames (ModelVal.mk t p ai plain structs refs).intoActive).Nodup)
    (h1 : Spec.PlainSet (plain.map fun f => (f.1, if ai ∧ f.1 = p then none else some f.2)) fs)
    (h2 : Spec.StructSet (structs.map fun s => (s.1, some s.2)) gs)
    (h3 : Spec.Referred (refsIntoActive refs) log fks) :
    (∀ c v, (c, v) ∈ fs ++ gs ++ fks → S.record rows t (meanings (fs ++ gs ++ fks)) c = Spec.meaning v) ∧
    (ai = true → S.record rows t (meanings (fs ++ gs ++ fks)) p =
      S.keyDatum t (S.insertId rows t (meanings (fs ++ gs ++ fks)))) := by
  rw [KeysFit] at hk
  have hnames : (fs ++ gs ++ fks).map (·.1) =
      Spec.setNames (ModelVal.mk t p ai plain structs refs).intoActive := by
    rw [ModelVal.intoActive, Spec.setNames, List.map_append, List.map_append, plainSet_names h1,
      structSet_names h2, referred_names _ h3]
  rw [← hnames] at hnd
  cases ai with
  | true =>
    obtain ⟨⟨k1, k2, _⟩, _⟩ := hk
    rw [← hnames] at k2
    have hg : S.generates t (meanings (fs ++ gs ++ fks)) = true := by
      unfold Spec.SqlServer.generates
      rw [k1]
      dsimp only
      rw [given_none k2]
    refine ⟨fun c v hc => ?_, fun _ => ?_⟩
    · have hne : ¬(S.auto t = some c ∧ S.generates t (meanings (fs ++ gs ++ fks)) = true) := by
        rintro ⟨h, _⟩
        rw [k1] at h
        cases h
        exact k2 (List.mem_map.2 ⟨_, hc, rfl⟩)
      unfold Spec.SqlServer.record
      rw [if_neg hne, given_mem hnd hc]
      rfl
    · unfold Spec.SqlServer.record Spec.SqlServer.insertId
      rw [if_pos ⟨k1, hg⟩, if_pos hg]
  | false =>
    obtain ⟨⟨_, _, k3⟩, _⟩ := hk
    have hg : S.generates t (meanings (fs ++ gs ++ fks)) = false := by
      unfold Spec.SqlServer.generates
      cases ha : S.auto t with
      | none => rfl
      | some k =>
        obtain ⟨w, hw, hb⟩ := k3 k ha
        have : (k, w) ∈ fs ++ gs ++ fks :=
          List.mem_append_left _ (List.mem_append_left _ ((plain_into (t := t) h1).2 ⟨hw, by simp⟩))
        dsimp only
        rw [given_mem hnd this]
        exact hb
    refine ⟨fun c v hc => ?_, fun h => by cases h⟩
    unfold Spec.SqlServer.record
    rw [if_neg (by rw [hg]; simp), given_mem hnd hc]
    rfl

/-- every value of the model is found along its path from the row. -/
def Stored (S : SqlServer) (rows : Tables) (mv : ModelVal) (r : Rec) : Prop :=
  ∀ path c o, Holds mv path c o →
    ∃ r', (S.database rows).follow (shape mv) r path = some r' ∧ HoldsRow S r' c o

theorem shape_table (mv : ModelVal) : (shape mv).table = mv.intoActive.table := by
  match mv with
  | .mk .. => rfl

theorem shape_refs (t p : Str) (ai : Bool) (plain : List (Str × Out SerializeError Value))
    (structs : List (Str × List (Str × Out SerializeError Value))) (refs : RefVals) :
    (shape (.mk t p ai plain structs refs)).refs = shapeRefs refs := by
  rw [shape]; rfl

mutual
theorem inserted_stored (S : SqlServer) (mv : ModelVal) (hk : KeysFit S mv) (hw : Writable mv.intoActive)
    (hs : Spec.ModelDef.Sound (shape mv)) {log : List Row} {id : UInt64} {rows rows' : Tables}
    (hi : Spec.Inserted mv.intoActive log id) (hst : Stores S rows log rows') :
    ∃ r pre, rows' (shape mv).table = pre ++ [r] ∧
      (∀ k, Spec.KeyOf mv.intoActive id k → S.eq (Spec.meaning k) (r (shape mv).primary) = true) ∧
      ∀ rows'', Grows rows' rows'' → (S.database rows'').Keyed (shape mv) → Stored S rows'' mv r := by
  match mv with
  | .mk t p ai plain structs refs =>
    rw [ModelVal.intoActive] at hi
    generalize hlog : log = log0 at hi
    cases hi with
    | @mk _ _ _ _ _ fs gs log1 fks _ h1 h2 h3 =>
    subst hlog
    obtain ⟨rows1, s1, s2⟩ := stores_split hst
    cases s2 with
    | cons _ e2 e3 =>
    cases e3
    dsimp only at e2 ⊢
    have hnd : (Spec.setNames (ModelVal.mk t p ai plain structs refs).intoActive).Nodup := by
      rw [ModelVal.intoActive, Writable] at hw
      rw [ModelVal.intoActive]
      exact hw.2.2.1
    have hwr : WritableRefs (refsIntoActive refs) := by
      rw [ModelVal.intoActive, Writable] at hw
      exact hw.2.2.2.2.2.2
    obtain ⟨o1, o2⟩ := own_row (rows := rows1) hk hnd h1 h2 h3
    have ht : (shape (.mk t p ai plain structs refs)).table = t := by rw [shape]; rfl
    have hp : (shape (.mk t p ai plain structs refs)).primary = p := by rw [shape]; rfl
    have hrefs := shape_refs t p ai plain structs refs
    rw [ht, hp]
    refine ⟨S.record rows1 t (meanings (fs ++ gs ++ fks)), rows1 t, ?_, ?_, ?_⟩
    · unfold withRow
      rw [if_pos rfl]
    · intro k hkey
      rw [ModelVal.intoActive] at hkey
      rw [KeysFit] at hk
      cases ai with
      | true =>
        have hk' := hk.1.2.2
        cases hkey with
        | own hm =>
          obtain ⟨f, _, hf⟩ := List.mem_map.1 hm
          simp only [Prod.mk.injEq] at hf
          rw [if_pos ⟨trivial, hf.1⟩] at hf
          cases hf.2
        | assigned _ =>
          rw [o2 rfl, ← e2]
          exact hk' id
      | false =>
        obtain ⟨⟨v, hv⟩, hk2, _⟩ := hk.1
        cases hkey with
        | own hm =>
          have hmem := ((C52_fields _ _ h1).1 _ _).2 hm
          rw [o1 p k (List.mem_append_left _ (List.mem_append_left _ hmem))]
          exact hk2 k ((plain_into (t := t) h1).1 hmem).1
        | assigned hn =>
          exact absurd (((C52_fields _ _ h1).1 _ _).1 ((plain_into (t := t) h1).2 ⟨hv, by simp⟩)) (hn v)
    · intro rows'' hg hkd path c o hh
      cases hh with
      | plain hc hne =>
        refine ⟨_, follow_nil .., o1 _ _ ?_⟩
        exact List.mem_append_left _ (List.mem_append_left _ ((plain_into (t := t) h1).2 ⟨hc, hne⟩))
      | key _ => exact ⟨_, follow_nil .., _, _, o2 rfl⟩
      | member hs hx =>
        refine ⟨_, follow_nil .., o1 _ _ ?_⟩
        exact List.mem_append_left _ (List.mem_append_right _ (struct_member h2 hs hx))
      | sub hr =>
        rw [KeysFit] at hk
        rw [shape, Spec.ModelDef.Sound] at hs
        rw [shape, Database.Keyed] at hkd
        obtain ⟨f, path', m', k, r', rfl, q1, q2, q3, r'', q4, q5⟩ :=
          referred_stored S refs hk.2 hwr t hs.2.2.2.2.2.2 h3 s1 rows''
            (Grows.trans (grows_withRow _ _ _) hg) hkd path c o hr
        refine ⟨r'', ?_, q5⟩
        rw [Database.follow, hrefs, q2]
        dsimp only
        rw [o1 f k (List.mem_append_right _ q1)]
        show (match (rows'' m'.table).find? (fun r' => S.eq (Spec.meaning k) (r' m'.primary)) with
          | none => none | some r' => (S.database rows'').follow m' r' path') = _
        rw [q3]
        exact q4

theorem referred_stored (S : SqlServer) (refs : RefVals) (hk : KeysFitRefs S refs)
    (hw : WritableRefs (refsIntoActive refs)) (t : Str) (hs : Spec.RefDefs.Sound t (shapeRefs refs))
    {log : List Row} {fks : List Field} {rows rows' : Tables}
    (hi : Spec.Referred (refsIntoActive refs) log fks) (hst : Stores S rows log rows')
    (rows'' : Tables) (hg : Grows rows' rows'') (hkd : (S.database rows'').KeyedRefs (shapeRefs refs))
    (path : List Str) (c : Str) (o : Option Value) (hh : HoldsRef refs path c o) :
    ∃ f path' m' k r', path = f :: path' ∧ (f, k) ∈ fks ∧ refModel f (shapeRefs refs) = some m' ∧
      (rows'' m'.table).find? (fun r' => S.eq (Spec.meaning k) (r' m'.primary)) = some r' ∧
      ∃ r'', (S.database rows'').follow m' r' path' = some r'' ∧ HoldsRow S r'' c o := by
  match refs with
  | .nil => cases hh
  | .cons f m rest =>
    rw [refsIntoActive] at hi hw
    rw [WritableRefs] at hw
    rw [KeysFitRefs] at hk
    rw [shapeRefs] at hs hkd ⊢
    rw [Spec.RefDefs.Sound] at hs
    rw [Database.KeyedRefs] at hkd
    cases hi with
    | insert i1 i2 i3 =>
    obtain ⟨rows1, s1, s2⟩ := stores_split hst
    cases hh with
    | here hm =>
      obtain ⟨r, pre, h1, h2, h3⟩ := inserted_stored S m hk.1 hw.1 hs.2.2.2.2.2.1 i1 s1
      have hg1 : Grows rows1 rows'' := (grows_stores s2).trans hg
      obtain ⟨r'', q1, q2⟩ := h3 rows'' hg1 hkd.2.1 _ _ _ hm
      refine ⟨f, _, shape m, _, r, rfl, List.mem_cons_self .., by rw [refModel, if_pos rfl], ?_, r'', q1, q2⟩
      refine find_key hkd.1 ?_ (h2 _ i2)
      refine (hg1 _).subset ?_
      rw [h1]
      exact List.mem_append_right _ (List.mem_singleton.2 rfl)
    | there hr =>
      obtain ⟨g, path', m', k, r', e, q1, q2, q3, q4⟩ := referred_stored S rest hk.2 hw.2 t hs.2.2.2.2.2.2
        i3 s2 rows'' hg hkd.2.2 path c o hr
      refine ⟨g, path', m', k, r', e, List.mem_cons_of_mem _ q1, ?_, q3, q4⟩
      rw [refModel, if_neg]
      · exact q2
      · rintro rfl
        rw [refModel_fresh hs.2.2.2.2.1] at q2
        cases q2
end

end Verif

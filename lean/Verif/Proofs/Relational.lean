import Verif.Spec.Relational
import Verif.Proofs.Orm

/-! # Lemmas: joins along references -/

namespace Verif

open Spec (HasField HasRef Rec Joined Database refModel)

mutual
/-- the combination a row is completed to. -/
def extend (db : Database) (ns : Str) (r : Rec) : ModelDef → Joined → Option Joined
  | .mk _ _ _ _ refs, e => extendRefs db ns r refs e

def extendRefs (db : Database) (ns : Str) (r : Rec) : RefDefs → Joined → Option Joined
  | .nil, e => some e
  | .cons f m rest, e =>
    match (db.rows m.table).find? fun r' => db.eq (r f) (r' m.primary) with
    | none => none
    | some r' =>
      match extend db (ns ++ '.' :: f) r' m (e.set (ns ++ '.' :: f) r') with
      | none => none
      | some e' => extendRefs db ns r rest e'
end

theorem append_ne_self {ns x : Str} (c : Char) : ns ++ c :: x ≠ ns := by
  intro h
  have := congrArg List.length h
  simp at this

/-- outside of the aliases below `ns` nothing changes. -/
theorem extend_frame (db : Database) (m : ModelDef) : ∀ (ns : Str) (r : Rec) (e e' : Joined),
    extend db ns r m e = some e' → ∀ a : Str, (∀ y, a ≠ ns ++ '.' :: y) → e' a = e a := by
  refine ModelDef.rec
    (motive_1 := fun m => ∀ (ns : Str) (r : Rec) (e e' : Joined),
      extend db ns r m e = some e' → ∀ a : Str, (∀ y, a ≠ ns ++ '.' :: y) → e' a = e a)
    (motive_2 := fun rs => ∀ (ns : Str) (r : Rec) (e e' : Joined),
      extendRefs db ns r rs e = some e' → ∀ a : Str, (∀ f y, refModel f rs ≠ none →
        a ≠ ns ++ '.' :: f ∧ a ≠ ns ++ '.' :: f ++ '.' :: y) → e' a = e a)
    ?_ ?_ ?_ m
  · intro t p plain structs refs ih ns r e e' h a ha
    rw [extend] at h
    exact ih ns r e e' h a fun f y _ => ⟨ha f, by simpa using ha (f ++ '.' :: y)⟩
  · intro ns r e e' h a _
    rw [extendRefs] at h
    cases h; rfl
  · intro f m rest ih1 ih2 ns r e e' h a ha
    rw [extendRefs] at h
    split at h
    · cases h
    · rename_i r' _
      split at h
      · cases h
      · rename_i e1 h1
        have hf : refModel f (.cons f m rest) ≠ none := by simp [refModel]
        rw [ih2 ns r e1 e' h a fun g y hg => ha g y (by
            rw [refModel]; split
            · simp
            · exact hg),
          ih1 _ r' _ e1 h1 a fun y => (ha f y hf).2]
        unfold Joined.set
        rw [if_neg (ha f [] hf).1]

/-- the joins of a model complete a row in exactly this way. -/
theorem join_extend (db : Database) (m : ModelDef) : ∀ (ns : Str) (r : Rec) (e : Joined)
    (js : List Spec.Join), db.Keyed m → e ns = r →
    db.join (Spec.joinsOf ns m ++ js) e = (extend db ns r m e).toList.flatMap (db.join js) := by
  refine ModelDef.rec
    (motive_1 := fun m => ∀ (ns : Str) (r : Rec) (e : Joined) (js : List Spec.Join),
      db.Keyed m → e ns = r →
      db.join (Spec.joinsOf ns m ++ js) e = (extend db ns r m e).toList.flatMap (db.join js))
    (motive_2 := fun rs => ∀ (ns : Str) (r : Rec) (e : Joined) (js : List Spec.Join),
      db.KeyedRefs rs → e ns = r →
      db.join (Spec.joinsRefs ns rs ++ js) e = (extendRefs db ns r rs e).toList.flatMap (db.join js))
    ?_ ?_ ?_ m
  · intro t p plain structs refs ih ns r e js hk he
    rw [extend, Spec.joinsOf]
    exact ih ns r e js (by rw [Database.Keyed] at hk; exact hk) he
  · intro ns r e js _ _
    rw [extendRefs, Spec.joinsRefs]
    simp
  · intro f m rest ih1 ih2 ns r e js hk he
    rw [Database.KeyedRefs] at hk
    obtain ⟨hk1, hk2, hk3⟩ := hk
    rw [extendRefs, Spec.joinsRefs, List.cons_append, List.cons_append, Database.join]
    dsimp only
    have hfil : ∀ l : List Rec, l.Pairwise (fun a b => ∀ x, ¬(db.eq x (a m.primary) = true ∧ db.eq x (b m.primary) = true)) →
        ∀ x, (l.filter fun r' => db.eq x (r' m.primary)) = (l.find? fun r' => db.eq x (r' m.primary)).toList := by
      intro l hl x
      induction l with
      | nil => rfl
      | cons a l ih =>
        rw [List.pairwise_cons] at hl
        cases hx : db.eq x (a m.primary) with
        | true =>
          rw [List.filter_cons_of_pos (p := fun r' : Rec => db.eq x (r' m.primary)) hx,
            List.find?_cons_of_pos (p := fun r' : Rec => db.eq x (r' m.primary)) hx]
          have : (l.filter fun r' => db.eq x (r' m.primary)) = [] := by
            rw [List.filter_eq_nil_iff]
            intro b hb hbx
            exact hl.1 b hb x ⟨hx, hbx⟩
          rw [this]; rfl
        | false =>
          rw [List.filter_cons_of_neg (by simp [hx]), List.find?_cons_of_neg (by simp [hx])]
          exact ih hl.2
    rw [he, hfil _ hk1]
    cases hfind : (db.rows m.table).find? fun r' => db.eq (r f) (r' m.primary) with
    | none => rfl
    | some r' =>
      dsimp only [Option.toList]
      rw [List.flatMap_cons, List.flatMap_nil, List.append_nil, List.append_assoc]
      rw [ih1 (ns ++ '.' :: f) r' _ _ hk2 (by simp [Joined.set])]
      cases hx : extend db (ns ++ '.' :: f) r' m (e.set (ns ++ '.' :: f) r') with
      | none => rfl
      | some e' =>
        dsimp only [Option.toList]
        rw [List.flatMap_cons, List.flatMap_nil, List.append_nil]
        refine ih2 ns r e' js hk3 ?_
        rw [extend_frame db m _ _ _ _ hx ns fun y hy => ?_]
        · unfold Joined.set
          rw [if_neg (Ne.symm (append_ne_self '.')), he]
        · rw [List.append_assoc] at hy
          exact append_ne_self (ns := ns) (x := f ++ '.' :: y) '.' (by simpa using hy.symm)

theorem refModel_fresh {f : Str} {rs : RefDefs} (h : Spec.fresh f rs) : refModel f rs = none := by
  match rs with
  | .nil => rfl
  | .cons g m rest =>
    rw [Spec.fresh] at h
    rw [refModel, if_neg (Ne.symm h.1)]
    exact refModel_fresh h.2
termination_by structural rs

/-- what following a reference path means below the references `rs`. -/
def followRefs (db : Database) (r : Rec) (rs : RefDefs) (f : Str) (p : List Str) : Option Rec :=
  match refModel f rs with
  | none => none
  | some m' =>
    match (db.rows m'.table).find? fun r' => db.eq (r f) (r' m'.primary) with
    | none => none
    | some r' => db.follow m' r' p

theorem follow_cons (db : Database) (m : ModelDef) (r : Rec) (f : Str) (p : List Str) :
    db.follow m r (f :: p) = followRefs db r m.refs f p := by
  rw [Database.follow]; rfl

theorem follow_nil (db : Database) (m : ModelDef) (r : Rec) : db.follow m r [] = some r := by
  rw [Database.follow]

theorem refModel_point {t f : Str} {rs : RefDefs} (h : Spec.RefDefs.Sound t rs) (hf : refModel f rs ≠ none) :
    '.' ∉ f := by
  match rs with
  | .nil => simp [refModel] at hf
  | .cons g m rest =>
    rw [Spec.RefDefs.Sound] at h
    rw [refModel] at hf
    split at hf
    · rename_i hg; rw [← hg]; exact h.2.1
    · exact refModel_point h.2.2.2.2.2.2 hf
termination_by structural rs

theorem aliasOf_nil (ns : Str) : Spec.aliasOf ns [] = ns := by simp [Spec.aliasOf]

/-- the completed combination has, under the alias of every path, the row the path leads to. -/
theorem extend_follow (db : Database) (m : ModelDef) : ∀ (ns : Str) (r : Rec) (e e' : Joined),
    Spec.ModelDef.Sound m → e ns = r → extend db ns r m e = some e' →
    ∀ p c, HasField m p c → db.follow m r p = some (e' (Spec.aliasOf ns p)) := by
  refine ModelDef.rec
    (motive_1 := fun m => ∀ (ns : Str) (r : Rec) (e e' : Joined),
      Spec.ModelDef.Sound m → e ns = r → extend db ns r m e = some e' →
      ∀ p c, HasField m p c → db.follow m r p = some (e' (Spec.aliasOf ns p)))
    (motive_2 := fun rs => ∀ (t ns : Str) (r : Rec) (e e' : Joined),
      Spec.RefDefs.Sound t rs → extendRefs db ns r rs e = some e' →
      ∀ f p c, HasRef rs (f :: p) c → followRefs db r rs f p = some (e' (Spec.aliasOf ns (f :: p))))
    ?_ ?_ ?_ m
  · intro t p plain structs refs ih ns r e e' hs he h q c hq
    have h0 := h
    rw [extend] at h
    rw [Spec.ModelDef.Sound] at hs
    cases hq with
    | own hc =>
      rw [follow_nil, aliasOf_nil, extend_frame db _ ns r e e' h0 ns, he]
      exact fun y => Ne.symm (append_ne_self '.')
    | sub hr =>
      cases q with
      | nil => exact absurd rfl (HasRef.ne_nil hr)
      | cons f q =>
        rw [follow_cons]
        exact ih t ns r e e' hs.2.2.2.2.2.2 h f q c hr
  · intro t ns r e e' _ _ f p c hr
    cases hr
  · intro f m rest ih1 ih2 t ns r e e' hs h g p c hr
    rw [Spec.RefDefs.Sound] at hs
    obtain ⟨_, hpt, _, _, hfresh, hsm, hsr⟩ := hs
    rw [extendRefs] at h
    cases hfind : (db.rows m.table).find? fun r' => db.eq (r f) (r' m.primary) with
    | none => rw [hfind] at h; cases h
    | some r' =>
      rw [hfind] at h
      dsimp only at h
      cases hx : extend db (ns ++ '.' :: f) r' m (e.set (ns ++ '.' :: f) r') with
      | none => rw [hx] at h; cases h
      | some e1 =>
        rw [hx] at h
        dsimp only at h
        cases hr with
        | here hh =>
          unfold followRefs
          rw [refModel, if_pos rfl]
          dsimp only
          rw [hfind]
          dsimp only
          rw [ih1 _ r' _ e1 hsm (by simp [Joined.set]) hx p c hh, aliasOf_cons]
          congr 1
          symm
          have key : extendRefs db ns r rest e1 = some e' := h
          refine extendRefs_frame db rest ns r e1 e' key _ ?_
          intro k y hk
          have hkp := refModel_point hsr hk
          have hkf : k ≠ f := by
            rintro rfl
            exact hk (refModel_fresh hfresh)
          have split : ∀ z : Str, Spec.aliasOf (ns ++ '.' :: f) p = ns ++ '.' :: k ++ z →
              (z = [] ∨ ∃ y, z = '.' :: y) → False := by
            intro z hz hz'
            unfold Spec.aliasOf at hz
            rw [List.append_assoc, List.append_assoc] at hz
            have hz := List.append_cancel_left hz
            rw [List.cons_append, List.cons_append] at hz
            injection hz with _ hz
            have e1 : f ++ (p.flatMap fun f => '.' :: f) ++ ['.'] = f ++ '.' :: (((p.flatMap fun f => '.' :: f) ++ ['.']).drop 1) := by
              cases p with
              | nil => simp
              | cons a p => simp
            have e2 : k ++ z ++ ['.'] = k ++ '.' :: ((z ++ ['.']).drop 1) := by
              rcases hz' with rfl | ⟨y, rfl⟩ <;> simp
            have := (split_point hpt hkp (by rw [← e1, ← e2, hz] : f ++ '.' :: _ = k ++ '.' :: _)).1
            exact hkf this.symm
          exact ⟨fun hh => split [] (by rw [← aliasOf_cons] at hh; rw [List.append_nil]; exact hh) (.inl rfl),
            fun hh => split ('.' :: y) (by rw [← aliasOf_cons] at hh; exact hh) (.inr ⟨y, rfl⟩)⟩
        | there hh =>
          obtain ⟨g', q', hg, hne⟩ := HasRef.fresh hh hfresh
          injection hg with hg1 hg2
          subst hg1
          have := ih2 t ns r e1 e' hsr h g p c hh
          unfold followRefs at this ⊢
          rw [refModel, if_neg hne]
          exact this
where
  extendRefs_frame (db : Database) (rs : RefDefs) (ns : Str) (r : Rec) (e e' : Joined)
      (h : extendRefs db ns r rs e = some e') (a : Str)
      (ha : ∀ f y, refModel f rs ≠ none → a ≠ ns ++ '.' :: f ∧ a ≠ ns ++ '.' :: f ++ '.' :: y) :
      e' a = e a := by
    match rs with
    | .nil => rw [extendRefs] at h; cases h; rfl
    | .cons f m rest =>
      rw [extendRefs] at h
      split at h
      · cases h
      · rename_i r' _
        split at h
        · cases h
        · rename_i e1 h1
          have hf : refModel f (.cons f m rest) ≠ none := by simp [refModel]
          rw [extendRefs_frame db rest ns r e1 e' h a fun g y hg => ha g y (by
              rw [refModel]; split
              · simp
              · exact hg),
            extend_frame db m _ r' _ e1 h1 a fun y => (ha f y hf).2]
          unfold Joined.set
          rw [if_neg (ha f [] hf).1]
  termination_by structural rs

/-- if every path leads somewhere, there is a completion. -/
theorem extend_some (db : Database) (m : ModelDef) : ∀ (ns : Str) (r : Rec) (e : Joined),
    Spec.ModelDef.Sound m → db.Complete m r → ∃ e', extend db ns r m e = some e' := by
  refine ModelDef.rec
    (motive_1 := fun m => ∀ (ns : Str) (r : Rec) (e : Joined),
      Spec.ModelDef.Sound m → db.Complete m r → ∃ e', extend db ns r m e = some e')
    (motive_2 := fun rs => ∀ (t ns : Str) (r : Rec) (e : Joined),
      Spec.RefDefs.Sound t rs → (∀ f p c, HasRef rs (f :: p) c → ∃ r', followRefs db r rs f p = some r') →
      ∃ e', extendRefs db ns r rs e = some e')
    ?_ ?_ ?_ m
  · intro t p plain structs refs ih ns r e hs hc
    rw [Spec.ModelDef.Sound] at hs
    rw [extend]
    refine ih t ns r e hs.2.2.2.2.2.2 fun f q c hq => ?_
    obtain ⟨r', hr⟩ := hc (f :: q) c (.sub hq)
    rw [follow_cons] at hr
    exact ⟨r', hr⟩
  · intro t ns r e _ _
    exact ⟨e, by rw [extendRefs]⟩
  · intro f m rest ih1 ih2 t ns r e hs hc
    rw [Spec.RefDefs.Sound] at hs
    obtain ⟨_, hpt, _, _, hfresh, hsm, hsr⟩ := hs
    obtain ⟨c, hcm⟩ : ∃ c, HasField m [] c := by
      match m with
      | .mk t' k plain structs refs =>
        rw [Spec.ModelDef.Sound] at hsm
        obtain ⟨x, hx⟩ := List.exists_mem_of_ne_nil _ hsm.2.2.2.1
        exact ⟨x, .own hx⟩
    have unf : ∀ p, followRefs db r (.cons f m rest) f p =
        match (db.rows m.table).find? fun r' => db.eq (r f) (r' m.primary) with
        | none => none
        | some r' => db.follow m r' p := by
      intro p
      unfold followRefs
      rw [refModel, if_pos rfl]
    obtain ⟨r1, h1⟩ := hc f [] c (.here hcm)
    rw [unf] at h1
    rw [extendRefs]
    cases hfind : (db.rows m.table).find? fun r' => db.eq (r f) (r' m.primary) with
    | none => rw [hfind] at h1; cases h1
    | some r' =>
      dsimp only
      obtain ⟨e1, h2⟩ := ih1 (ns ++ '.' :: f) r' (e.set (ns ++ '.' :: f) r') hsm fun p c hp => by
        obtain ⟨r2, h3⟩ := hc f p c (.here hp)
        rw [unf, hfind] at h3
        exact ⟨r2, h3⟩
      rw [h2]
      dsimp only
      refine ih2 t ns r e1 hsr fun g p c hg => ?_
      obtain ⟨g', q', hh, hne⟩ := HasRef.fresh hg hfresh
      injection hh with hg1 _
      subst hg1
      obtain ⟨r2, h3⟩ := hc g p c (.there hg)
      refine ⟨r2, ?_⟩
      unfold followRefs at h3 ⊢
      rw [refModel, if_neg hne] at h3
      exact h3

end Verif

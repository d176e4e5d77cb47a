import Verif.Spec.Orm
import Verif.Proofs.SqlTokens

/-! # Lemmas: model queries and mappings -/

namespace Verif

open Spec (HasField HasRef)

mutual
theorem mem_leaves (m : ModelDef) (p : List Str) (c : Str) : (p, c) ∈ leaves m ↔ HasField m p c := by
  match m with
  | .mk t k plain structs refs =>
    rw [leaves, List.mem_append, mem_leavesRefs refs p c]
    constructor
    · rintro (h | h)
      · obtain ⟨c', hc, he⟩ := List.mem_map.1 h
        cases he
        exact .own hc
      · exact .sub h
    · intro h
      cases h with
      | own hc => exact .inl (List.mem_map.2 ⟨c, hc, rfl⟩)
      | sub hr => exact .inr hr

theorem mem_leavesRefs (r : RefDefs) (p : List Str) (c : Str) : (p, c) ∈ leavesRefs r ↔ HasRef r p c := by
  match r with
  | .nil => exact ⟨(by intro h; cases h), (by intro h; cases h)⟩
  | .cons f m r =>
    rw [leavesRefs, List.mem_append, mem_leavesRefs r p c]
    constructor
    · rintro (h | h)
      · obtain ⟨⟨p', c'⟩, hc, he⟩ := List.mem_map.1 h
        cases he
        exact .here ((mem_leaves m p' c').1 hc)
      · exact .there h
    · intro h
      cases h with
      | here h => exact .inl (List.mem_map.2 ⟨(_, c), (mem_leaves m _ c).2 h, rfl⟩)
      | there h => exact .inr h
end

theorem HasRef.fresh {f : Str} {r : RefDefs} {p : List Str} {c : Str} (h : HasRef r p c)
    (hf : Spec.fresh f r) : ∃ g q, p = g :: q ∧ f ≠ g := by
  match r with
  | .nil => cases h
  | .cons g m r =>
    rw [Spec.fresh] at hf
    cases h with
    | here h => exact ⟨g, _, rfl, hf.1⟩
    | there h => exact HasRef.fresh h hf.2
termination_by structural r

theorem HasRef.ne_nil {r : RefDefs} {p : List Str} {c : Str} (h : HasRef r p c) : p ≠ [] := by
  match r with
  | .nil => cases h
  | .cons g m r =>
    cases h with
    | here h => simp
    | there h => exact HasRef.ne_nil h
termination_by structural r

mutual
theorem leaves_nodup (m : ModelDef) (h : Spec.ModelDef.Sound m) : (leaves m).Nodup := by
  match m with
  | .mk t k plain structs refs =>
    rw [Spec.ModelDef.Sound] at h
    obtain ⟨_, _, _, _, hn, _, hr⟩ := h
    rw [leaves, List.nodup_append]
    refine ⟨?_, leavesRefs_nodup t refs hr, fun a ha b hb hab => ?_⟩
    · unfold List.Nodup at hn ⊢
      rw [List.pairwise_map]
      exact hn.imp fun hne hh => hne (Prod.mk.inj hh).2
    · obtain ⟨c, _, rfl⟩ := List.mem_map.1 ha
      obtain ⟨p, c'⟩ := b
      exact HasRef.ne_nil ((mem_leavesRefs refs p c').1 hb) (Prod.mk.inj hab).1.symm

theorem leavesRefs_nodup (t : Str) (r : RefDefs) (h : Spec.RefDefs.Sound t r) : (leavesRefs r).Nodup := by
  match r with
  | .nil => exact List.nodup_nil
  | .cons f m r =>
    rw [Spec.RefDefs.Sound] at h
    obtain ⟨_, _, _, _, hf, hm, hr⟩ := h
    rw [leavesRefs, List.nodup_append]
    refine ⟨?_, leavesRefs_nodup t r hr, fun a ha b hb hab => ?_⟩
    · have := leaves_nodup m hm
      unfold List.Nodup at this ⊢
      rw [List.pairwise_map]
      refine this.imp fun hne hh => hne ?_
      have h1 := (Prod.mk.inj hh).1
      exact Prod.ext (List.cons.inj h1).2 (Prod.mk.inj hh).2
    · obtain ⟨l, _, rfl⟩ := List.mem_map.1 ha
      obtain ⟨p, c⟩ := b
      obtain ⟨g, q, h1, h2⟩ := HasRef.fresh ((mem_leavesRefs r p c).1 hb) hf
      have := (Prod.mk.inj hab).1
      rw [h1] at this
      exact h2 (List.cons.inj this).1
end

/-! ### routing -/

/-- a path joined by points. -/
def rel : List Str → Str
  | [] => []
  | [f] => f
  | f :: g :: p => f ++ '.' :: rel (g :: p)

theorem aliasOf_rel (t : Str) (f : Str) (p : List Str) :
    Spec.aliasOf t (f :: p) = t ++ '.' :: rel (f :: p) := by
  unfold Spec.aliasOf
  congr 1
  induction p generalizing f with
  | nil => simp [rel]
  | cons g p ih =>
    rw [List.flatMap_cons, ih g, rel]
    simp

theorem split_point {f g x y : Str} (hf : '.' ∉ f) (hg : '.' ∉ g) (h : f ++ '.' :: x = g ++ '.' :: y) :
    f = g ∧ x = y := by
  induction f generalizing g with
  | nil =>
    cases g with
    | nil => exact ⟨rfl, by simpa using h⟩
    | cons c g =>
      simp only [List.nil_append, List.cons_append, List.cons.injEq] at h
      exact absurd (by rw [← h.1]; simp) hg
  | cons c f ih =>
    cases g with
    | nil =>
      simp only [List.nil_append, List.cons_append, List.cons.injEq] at h
      exact absurd (by rw [h.1]; simp) hf
    | cons d g =>
      simp only [List.cons_append, List.cons.injEq] at h
      obtain ⟨h1, h2⟩ := ih (fun hh => hf (List.mem_cons_of_mem _ hh))
        (fun hh => hg (List.mem_cons_of_mem _ hh)) h.2
      exact ⟨by rw [h.1, h1], h2⟩

theorem prefix_point {g s : Str} : (g ++ ['.']).isPrefixOf s = true ↔ ∃ y, s = g ++ '.' :: y := by
  rw [List.isPrefixOf_iff_prefix]
  constructor
  · rintro ⟨y, hy⟩
    exact ⟨y, by rw [← hy]; simp⟩
  · rintro ⟨y, hy⟩
    exact ⟨y, by rw [hy]; simp⟩

theorem stripPrefix_point (t y : Str) : stripPrefix (t ++ ['.']) (t ++ '.' :: y) = some y := by
  unfold stripPrefix
  rw [if_pos (prefix_point.2 ⟨y, rfl⟩)]
  congr 1
  rw [show t ++ '.' :: y = (t ++ ['.']) ++ y by simp, List.drop_left]

theorem stripPrefix_none {t s : Str} (h : ∀ y, s ≠ t ++ '.' :: y) : stripPrefix (t ++ ['.']) s = none := by
  unfold stripPrefix
  rw [if_neg]
  intro hh
  obtain ⟨y, hy⟩ := prefix_point.1 hh
  exact h y hy

/-- own columns: no reference catches this table. -/
theorem routeInner_own (table c : Str) (cols : List Str) (hc : c ∈ cols) (r : RefDefs) (t : Str) (hs : Spec.RefDefs.Sound t r)
    (htab : table = [] ∨ table = t ∧ '.' ∉ t) : routeInner table c cols r = some [] := by
  match r with
  | .nil => rw [routeInner, if_pos hc]
  | .cons f m r =>
    rw [Spec.RefDefs.Sound] at hs
    obtain ⟨h1, h2, _, h4, _, _, h7⟩ := hs
    rw [routeInner, if_neg, if_neg]
    · exact routeInner_own table c cols hc r t h7 htab
    · intro hh
      obtain ⟨y, hy⟩ := prefix_point.1 hh
      rcases htab with h | ⟨h, hd⟩
      · rw [h] at hy; simp at hy
      · rw [h] at hy; exact hd (by rw [hy]; simp)
    · rcases htab with h | ⟨h, hd⟩
      · rw [h]; exact fun hh => h1 hh.symm
      · rw [h]; exact fun hh => h4 hh.symm
termination_by structural r

mutual
theorem route_rel (m : ModelDef) (h : Spec.ModelDef.Sound m) (p : List Str) (c : Str)
    (hf : HasField m p c) : route (rel p) c m = some p := by
  match m with
  | .mk t k plain structs refs =>
    have h' := h
    rw [Spec.ModelDef.Sound] at h
    obtain ⟨_, htd, _, _, _, _, hr⟩ := h
    rw [route]
    cases hf with
    | own hc =>
      rw [rel, stripPrefix_none (by intro y; simp)]
      exact routeInner_own [] c _ hc refs t hr (.inl rfl)
    | sub hp =>
      rw [stripPrefix_none]
      · exact routeInner_rel t refs hr _ p c hp
      · exact fun y hy => rel_ne t htd refs hr p c hp y hy

theorem routeInner_rel (t : Str) (r : RefDefs) (h : Spec.RefDefs.Sound t r) (cols : List Str)
    (p : List Str) (c : Str) (hf : HasRef r p c) : routeInner (rel p) c cols r = some p := by
  match r with
  | .nil => cases hf
  | .cons f m r =>
    rw [Spec.RefDefs.Sound] at h
    obtain ⟨h1, h2, _, h4, h5, h6, h7⟩ := h
    cases hf with
    | here hm =>
      rename_i q
      have := route_rel m h6 q c hm
      rw [routeInner]
      cases q with
      | nil =>
        rw [rel, if_pos rfl]
        rw [rel] at this
        rw [this]
        rfl
      | cons g q =>
        rw [rel, if_neg, if_pos (prefix_point.2 ⟨_, rfl⟩)]
        · rw [show f ++ '.' :: rel (g :: q) = (f ++ ['.']) ++ rel (g :: q) by simp,
            show f.length + 1 = (f ++ ['.']).length by simp, List.drop_left, this]
          rfl
        · intro hh
          have := congrArg List.length hh
          simp at this
    | there hp =>
      obtain ⟨g, q, hpq, hfg⟩ := HasRef.fresh hp h5
      have hdg : '.' ∉ g := by
        rw [hpq] at hp
        exact HasRef.noPoint hp h7
      rw [routeInner, if_neg, if_neg]
      · exact routeInner_rel t r h7 cols p c hp
      · intro hh
        obtain ⟨y, hy⟩ := prefix_point.1 hh
        rw [hpq] at hy
        cases q with
        | nil => rw [rel] at hy; exact hdg (by rw [hy]; simp)
        | cons g' q => rw [rel] at hy; exact hfg (split_point hdg h2 hy).1.symm
      · rw [hpq]
        intro hh
        cases q with
        | nil => rw [rel] at hh; exact hfg hh.symm
        | cons g' q => rw [rel] at hh; exact h2 (by rw [← hh]; simp)

theorem HasRef.noPoint {t : Str} {r : RefDefs} {f : Str} {p : List Str} {c : Str} (h : HasRef r (f :: p) c)
    (hs : Spec.RefDefs.Sound t r) : '.' ∉ f := by
  match r with
  | .nil => cases h
  | .cons g m r =>
    rw [Spec.RefDefs.Sound] at hs
    cases h with
    | here _ => exact hs.2.1
    | there h => exact HasRef.noPoint h hs.2.2.2.2.2.2

theorem rel_ne (t : Str) (ht : '.' ∉ t) (r : RefDefs) (h : Spec.RefDefs.Sound t r) (p : List Str) (c : Str)
    (hp : HasRef r p c) (y : Str) : rel p ≠ t ++ '.' :: y := by
  match r with
  | .nil => cases hp
  | .cons f m r =>
    rw [Spec.RefDefs.Sound] at h
    obtain ⟨h1, h2, _, h4, h5, h6, h7⟩ := h
    cases hp with
    | here hm =>
      rename_i q
      cases q with
      | nil => rw [rel]; intro hh; exact h2 (by rw [hh]; simp)
      | cons g q => rw [rel]; intro hh; exact h4 (split_point h2 ht hh).1
    | there hp => exact rel_ne t ht r h7 p c hp y
end

/-- a column selected for a field goes to this field. -/
theorem route_alias (m : ModelDef) (h : Spec.ModelDef.Sound m) (p : List Str) (c : Str)
    (hf : HasField m p c) : route (Spec.aliasOf m.table p) c m = some p := by
  match m with
  | .mk t k plain structs refs =>
    have h' := h
    rw [Spec.ModelDef.Sound] at h
    obtain ⟨_, htd, _, _, _, _, hr⟩ := h
    rw [route]
    cases hf with
    | own hc =>
      have : Spec.aliasOf (ModelDef.mk t k plain structs refs).table [] = t := by
        simp [Spec.aliasOf, ModelDef.table]
      rw [this, stripPrefix_none]
      · exact routeInner_own t c _ hc refs t hr (.inr ⟨rfl, htd⟩)
      · intro y hy
        have := congrArg List.length hy
        simp at this
    | sub hp =>
      obtain ⟨g, q, hpq⟩ : ∃ g q, p = g :: q := by
        cases p with
        | nil => exact absurd rfl (HasRef.ne_nil hp)
        | cons g q => exact ⟨g, q, rfl⟩
      rw [hpq, aliasOf_rel, show (ModelDef.mk t k plain structs refs).table = t from rfl, stripPrefix_point]
      have := routeInner_rel t refs hr (ModelDef.mk t k plain structs refs).cols p c hp
      rw [hpq] at this
      exact this

/-! ### the mapping -/

theorem fromColumnsAt_eq (m : ModelDef) (h : Spec.ModelDef.Sound m) (ls : List (List Str × Str))
    (hf : ∀ l ∈ ls, HasField m l.1 l.2) (hn : ls.Nodup) (i : Nat) (mp : Mapping) (p : List Str) (c : Str) :
    ((p, c) ∉ ls →
      fromColumnsAt m i (ls.map fun l => (Spec.aliasOf m.table l.1, l.2)) mp p c = mp p c) ∧
    ∀ k, ls[k]? = some (p, c) →
      fromColumnsAt m i (ls.map fun l => (Spec.aliasOf m.table l.1, l.2)) mp p c = some (i + k) := by
  induction ls generalizing i mp with
  | nil => exact ⟨fun _ => rfl, (by intro k hk; simp at hk)⟩
  | cons l ls ih =>
    rw [List.nodup_cons] at hn
    rw [List.map_cons, fromColumnsAt, route_alias m h l.1 l.2 (hf l (List.mem_cons_self ..))]
    obtain ⟨i1, i2⟩ := ih (fun l' hl' => hf l' (List.mem_cons_of_mem _ hl')) hn.2 (i + 1) (mp.set l.1 l.2 i)
    constructor
    · intro hm
      rw [List.mem_cons, not_or] at hm
      refine (i1 hm.2).trans ?_
      unfold Mapping.set
      rw [if_neg]
      rintro ⟨h1, h2⟩
      exact hm.1 (Prod.ext h1 h2)
    · intro k hk
      cases k with
      | zero =>
        simp at hk
        have hm : (p, c) ∉ ls := by rw [← hk]; exact hn.1
        refine (i1 hm).trans ?_
        unfold Mapping.set
        rw [if_pos (by rw [hk]; exact ⟨rfl, rfl⟩)]
        rfl
      | succ k =>
        simp at hk
        refine (i2 k hk).trans ?_
        congr 1
        omega

theorem readLeaves_eq (mp : Mapping) (val : List Str × Str → Value) (ls : List (List Str × Str))
    (hn : ls.Nodup) (row : List Value)
    (hi : ∀ l ∈ ls, ∃ k, mp l.1 l.2 = some k ∧ row[k]? = some (val l))
    (hd : ∀ l ∈ ls, ∀ l' ∈ ls, mp l.1 l.2 = mp l'.1 l'.2 → l = l') :
    readLeaves mp ls row = .ok (ls.map fun l => (l, val l)) := by
  induction ls generalizing row with
  | nil => rfl
  | cons l ls ih =>
    rw [List.nodup_cons] at hn
    obtain ⟨k, h1, h2⟩ := hi l (List.mem_cons_self ..)
    obtain ⟨p, c⟩ := l
    rw [readLeaves, h1]
    dsimp only
    rw [h2]
    dsimp only
    rw [ih hn.2 (row.set k .null) ?_ fun l hl l' hl' => hd l (List.mem_cons_of_mem _ hl) l' (List.mem_cons_of_mem _ hl')]
    · rfl
    · intro l hl
      obtain ⟨k', h3, h4⟩ := hi l (List.mem_cons_of_mem _ hl)
      refine ⟨k', h3, ?_⟩
      have : k ≠ k' := by
        intro hh
        have := hd (p, c) (List.mem_cons_self ..) l (List.mem_cons_of_mem _ hl) (by rw [h1, h3, hh])
        rw [this] at hn
        exact hn.1 hl
      rw [List.getElem?_set_ne this]
      exact h4

/-! ### the text of the query -/

/-- separated by commas. -/
def commas : List Str → Str
  | [] => []
  | [s] => s
  | s :: t :: r => s ++ ", ".toList ++ commas (t :: r)

theorem commas_append {a b : List Str} (ha : a ≠ []) (hb : b ≠ []) :
    commas (a ++ b) = commas a ++ ", ".toList ++ commas b := by
  induction a with
  | nil => exact absurd rfl ha
  | cons s a ih =>
    cases a with
    | nil =>
      cases b with
      | nil => exact absurd rfl hb
      | cons t b => simp [commas]
    | cons s' a =>
      rw [List.cons_append, List.cons_append, commas, ← List.cons_append, ih (by simp), commas]
      simp

/-- with the comma the loop writes before all but the first. -/
def lead (i : Nat) (s : List Str) : Str := if s = [] then [] else (if i ≠ 0 then ", ".toList else []) ++ commas s

theorem lead_append (i : Nat) (a b : List Str) (h : (i = 0 ↔ a = [] ∧ i = 0) ∨ a ≠ []) :
    lead i (a ++ b) = lead i a ++ lead (i + a.length) b := by
  by_cases ha : a = []
  · subst ha; simp [lead]
  · by_cases hb : b = []
    · subst hb; simp [lead]
    · have hl : i + a.length ≠ 0 := by
        have := List.length_pos_iff.2 ha
        omega
      unfold lead
      rw [if_neg (by simp [ha]), if_neg ha, if_neg hb, commas_append ha hb, if_pos hl]
      simp

/-- the text of select items. -/
def itemText (i : Str × Str) : Str := columnText i.1 i.2

theorem appendCols_eq (ns : Str) (i : Nat) (cs : List Str) (a : Str × Str) :
    appendCols ns i cs a = (a.1 ++ lead i (cs.map fun c => columnText ns c), a.2) := by
  induction cs generalizing i a with
  | nil => simp [appendCols, lead]
  | cons c cs ih =>
    rw [appendCols, ih]
    have : (c :: cs).map (fun c => columnText ns c) = [columnText ns c] ++ cs.map fun c => columnText ns c := rfl
    rw [this, lead_append i _ _ (.inr (by simp))]
    simp [lead, commas]

mutual
/-- the select items of a model under an alias. -/
def itemsAt (ns : Str) : ModelDef → List (Str × Str)
  | .mk t p plain structs refs =>
    (ModelDef.mk t p plain structs refs).cols.map (fun c => (ns, c)) ++ itemsRefs ns refs

def itemsRefs (ns : Str) : RefDefs → List (Str × Str)
  | .nil => []
  | .cons f m r => itemsAt (ns ++ '.' :: f) m ++ itemsRefs ns r
end

theorem itemsAt_ne (ns : Str) (m : ModelDef) (h : Spec.ModelDef.Sound m) : itemsAt ns m ≠ [] := by
  match m with
  | .mk t p plain structs refs =>
    rw [Spec.ModelDef.Sound] at h
    rw [itemsAt]
    simp [h.2.2.2.1]

def joinTextOf (j : Spec.Join) : Str :=
  " join `".toList ++ j.table ++ "` as `".toList ++ j.alias ++ "` on (`".toList ++ j.parent ++
    "`.`".toList ++ j.field ++ "` = `".toList ++ j.alias ++ "`.`".toList ++ j.key ++ "`)".toList

mutual
theorem appendModel_eq (ns : Str) (m : ModelDef) (h : Spec.ModelDef.Sound m) (a : Str × Str) :
    appendModel ns m a =
      (a.1 ++ commas ((itemsAt ns m).map itemText), a.2 ++ (Spec.joinsOf ns m).flatMap joinTextOf) := by
  match m with
  | .mk t p plain structs refs =>
    have hne := itemsAt_ne ns _ h
    rw [Spec.ModelDef.Sound] at h
    obtain ⟨_, _, _, hc, _, _, hr⟩ := h
    rw [appendModel, appendCols_eq, appendRefs_eq ns t refs hr _ (by
      have := List.length_pos_iff.2 hc
      omega), Spec.joinsOf]
    have hl : lead 0 ((itemsAt ns (.mk t p plain structs refs)).map itemText) =
        commas ((itemsAt ns (.mk t p plain structs refs)).map itemText) := by
      unfold lead
      rw [if_neg (by simpa using hne)]
      rfl
    rw [← hl, itemsAt, List.map_append, lead_append 0 _ _ (.inr (by simpa using hc))]
    simp only [List.map_map, List.length_map, Nat.zero_add, List.append_assoc]
    rfl

theorem appendRefs_eq (ns t : Str) (r : RefDefs) (h : Spec.RefDefs.Sound t r) (i : Nat) (hi : i ≠ 0)
    (a : Str × Str) :
    appendRefs ns i r a =
      (a.1 ++ lead i ((itemsRefs ns r).map itemText), a.2 ++ (Spec.joinsRefs ns r).flatMap joinTextOf) := by
  match r with
  | .nil => simp [appendRefs, itemsRefs, lead, Spec.joinsRefs]
  | .cons f m r =>
    rw [Spec.RefDefs.Sound] at h
    obtain ⟨_, _, _, _, _, hm, hr⟩ := h
    have hne := itemsAt_ne (ns ++ '.' :: f) m hm
    rw [appendRefs, appendModel_eq (ns ++ '.' :: f) m hm, appendRefs_eq ns t r hr (i + 1) (by omega),
      itemsRefs, List.map_append, lead_append i _ _ (.inr (by simpa using hne)), Spec.joinsRefs]
    have e1 : lead i ((itemsAt (ns ++ '.' :: f) m).map itemText) =
        ", ".toList ++ commas ((itemsAt (ns ++ '.' :: f) m).map itemText) := by
      unfold lead
      rw [if_neg (by simpa using hne), if_pos hi]
    have e2 : ∀ l : List Str, lead (i + 1) l = lead (i + ((itemsAt (ns ++ '.' :: f) m).map itemText).length) l := by
      intro l
      have := List.length_pos_iff.2 hne
      unfold lead
      rw [if_pos (show i + 1 ≠ 0 by omega), if_pos (show i + ((itemsAt (ns ++ '.' :: f) m).map itemText).length ≠ 0 by omega)]
    rw [e1, e2, if_pos hi]
    simp only [List.flatMap_cons, List.flatMap_append, List.append_assoc]
    rfl
end

/-! ### items are the leaves -/

theorem aliasOf_cons (ns f : Str) (p : List Str) :
    Spec.aliasOf (ns ++ '.' :: f) p = Spec.aliasOf ns (f :: p) := by
  simp [Spec.aliasOf]

mutual
theorem itemsAt_eq (ns : Str) (m : ModelDef) :
    itemsAt ns m = (leaves m).map fun l => (Spec.aliasOf ns l.1, l.2) := by
  match m with
  | .mk t p plain structs refs =>
    rw [itemsAt, leaves, List.map_append, itemsRefs_eq ns refs, List.map_map]
    congr 1
    refine List.map_congr_left fun c _ => ?_
    simp [Spec.aliasOf]

theorem itemsRefs_eq (ns : Str) (r : RefDefs) :
    itemsRefs ns r = (leavesRefs r).map fun l => (Spec.aliasOf ns l.1, l.2) := by
  match r with
  | .nil => rfl
  | .cons f m r =>
    rw [itemsRefs, leavesRefs, List.map_append, itemsRefs_eq ns r, itemsAt_eq (ns ++ '.' :: f) m, List.map_map]
    congr 1
    refine List.map_congr_left fun l _ => ?_
    simp only [Function.comp, aliasOf_cons]
end

/-! ### reading the text -/

def itemToks (i : Str × Str) : List Spec.Tok := [.name i.1, .punct '.', .name i.2]

def itemsToks : List (Str × Str) → List Spec.Tok
  | [] => []
  | [i] => itemToks i
  | i :: j :: r => itemToks i ++ .punct ',' :: itemsToks (j :: r)

def joinToks (j : Spec.Join) : List Spec.Tok :=
  [.word "join".toList, .name j.table, .word "as".toList, .name j.alias, .word "on".toList, .punct '(',
   .name j.parent, .punct '.', .name j.field, .punct '=', .name j.alias, .punct '.', .name j.key, .punct ')']

theorem Reads.item {i : Str × Str} {s : Str} {ts : List Spec.Tok} (h1 : '`' ∉ i.1) (h2 : '`' ∉ i.2)
    (hs : s.head? ≠ some '`') (h : Reads s ts) : Reads (itemText i ++ s) (itemToks i ++ ts) := by
  have a := Reads.name i.2 h2 hs h
  have b := Reads.punct '.' (by decide) a
  have c := Reads.name i.1 h1 (by intro hh; cases hh) b
  have e : itemText i ++ s = '`' :: (i.1 ++ '`' :: ('.' :: '`' :: (i.2 ++ '`' :: s))) := by
    unfold itemText columnText
    simp
  rw [e]
  exact c

theorem Reads.items {l : List (Str × Str)} {s : Str} {ts : List Spec.Tok}
    (hl : ∀ i ∈ l, '`' ∉ i.1 ∧ '`' ∉ i.2) (hs : s.head? ≠ some '`') (h : Reads s ts) :
    Reads (commas (l.map itemText) ++ s) (itemsToks l ++ ts) := by
  match l with
  | [] => exact h
  | [i] =>
    obtain ⟨h1, h2⟩ := hl i (List.mem_cons_self ..)
    exact Reads.item h1 h2 hs h
  | i :: j :: r =>
    obtain ⟨h1, h2⟩ := hl i (List.mem_cons_self ..)
    have a := Reads.items (l := j :: r) (fun x hx => hl x (List.mem_cons_of_mem _ hx)) hs h
    have b := Reads.fixed ", ".toList (ts := [.punct ',']) (by decide) (by decide) a
    have c := Reads.item h1 h2 (by intro hh; cases hh) b
    rw [List.map_cons, List.map_cons, commas, itemsToks]
    rw [List.map_cons] at c
    simp only [List.append_assoc] at c ⊢
    exact c

theorem Reads.join {j : Spec.Join} {s : Str} {ts : List Spec.Tok} (h1 : '`' ∉ j.table) (h2 : '`' ∉ j.alias)
    (h3 : '`' ∉ j.parent) (h4 : '`' ∉ j.field) (h5 : '`' ∉ j.key) (h : Reads s ts) :
    Reads (joinTextOf j ++ s) (joinToks j ++ ts) := by
  have a := Reads.punct ')' (by decide) h
  have a := Reads.name j.key h5 (by intro hh; cases hh) a
  have a := Reads.punct '.' (by decide) a
  have a := Reads.name j.alias h2 (by intro hh; cases hh) a
  have a := Reads.fixed " = ".toList (ts := [.punct '=']) (by decide) (by decide) a
  have a := Reads.name j.field h4 (by intro hh; cases hh) a
  have a := Reads.punct '.' (by decide) a
  have a := Reads.name j.parent h3 (by intro hh; cases hh) a
  have a := Reads.fixed " on (".toList (ts := [.word "on".toList, .punct '(']) (by decide +kernel) (by decide) a
  have a := Reads.name j.alias h2 (by intro hh; cases hh) a
  have a := Reads.fixed " as ".toList (ts := [.word "as".toList]) (by decide +kernel) (by decide) a
  have a := Reads.name j.table h1 (by intro hh; cases hh) a
  have a := Reads.fixed " join ".toList (ts := [.word "join".toList]) (by decide +kernel) (by decide) a
  have e : joinTextOf j ++ s = " join ".toList ++ '`' :: (j.table ++ '`' :: (" as ".toList ++ '`' ::
      (j.alias ++ '`' :: (" on (".toList ++ '`' :: (j.parent ++ '`' :: '.' :: '`' :: (j.field ++ '`' ::
      (" = ".toList ++ '`' :: (j.alias ++ '`' :: '.' :: '`' :: (j.key ++ '`' :: ')' :: s))))))))) := by
    unfold joinTextOf
    simp
  rw [e]
  exact a

theorem Reads.joins {l : List Spec.Join} (hl : ∀ j ∈ l, '`' ∉ j.table ∧ '`' ∉ j.alias ∧ '`' ∉ j.parent ∧
    '`' ∉ j.field ∧ '`' ∉ j.key) : Reads (l.flatMap joinTextOf) (l.flatMap joinToks) := by
  induction l with
  | nil => exact .nil
  | cons j l ih =>
    obtain ⟨h1, h2, h3, h4, h5⟩ := hl j (List.mem_cons_self ..)
    exact Reads.join h1 h2 h3 h4 h5 (ih fun x hx => hl x (List.mem_cons_of_mem _ hx))

theorem noq_append {ns f : Str} (h1 : '`' ∉ ns) (h2 : '`' ∉ f) : '`' ∉ ns ++ '.' :: f := by
  intro h
  rw [List.mem_append] at h
  rcases h with h | h
  · exact h1 h
  · rcases List.mem_cons.1 h with h | h
    · revert h; decide
    · exact h2 h

mutual
theorem itemsAt_noq (ns : Str) (hns : '`' ∉ ns) (m : ModelDef) (h : Spec.ModelDef.Sound m) :
    ∀ i ∈ itemsAt ns m, '`' ∉ i.1 ∧ '`' ∉ i.2 := by
  match m with
  | .mk t p plain structs refs =>
    rw [Spec.ModelDef.Sound] at h
    obtain ⟨_, _, _, _, _, hc, hr⟩ := h
    rw [itemsAt]
    intro i hi
    rcases List.mem_append.1 hi with hi | hi
    · obtain ⟨c, h1, rfl⟩ := List.mem_map.1 hi
      exact ⟨hns, hc c h1⟩
    · exact itemsRefs_noq ns hns t refs hr i hi

theorem itemsRefs_noq (ns : Str) (hns : '`' ∉ ns) (t : Str) (r : RefDefs) (h : Spec.RefDefs.Sound t r) :
    ∀ i ∈ itemsRefs ns r, '`' ∉ i.1 ∧ '`' ∉ i.2 := by
  match r with
  | .nil => intro i hi; cases hi
  | .cons f m r =>
    rw [Spec.RefDefs.Sound] at h
    obtain ⟨_, _, hf, _, _, hm, hr⟩ := h
    rw [itemsRefs]
    intro i hi
    rcases List.mem_append.1 hi with hi | hi
    · exact itemsAt_noq _ (noq_append hns hf) m hm i hi
    · exact itemsRefs_noq ns hns t r hr i hi
end

theorem sound_names (m : ModelDef) (h : Spec.ModelDef.Sound m) : '`' ∉ m.table ∧ '`' ∉ m.primary := by
  match m with
  | .mk t p plain structs refs =>
    rw [Spec.ModelDef.Sound] at h
    exact ⟨h.1, h.2.2.1⟩

mutual
theorem joinsOf_noq (ns : Str) (hns : '`' ∉ ns) (m : ModelDef) (h : Spec.ModelDef.Sound m) :
    ∀ j ∈ Spec.joinsOf ns m, '`' ∉ j.table ∧ '`' ∉ j.alias ∧ '`' ∉ j.parent ∧ '`' ∉ j.field ∧ '`' ∉ j.key := by
  match m with
  | .mk t p plain structs refs =>
    rw [Spec.ModelDef.Sound] at h
    obtain ⟨_, _, _, _, _, hc, hr⟩ := h
    rw [Spec.joinsOf]
    exact joinsRefs_noq ns hns t refs hr

theorem joinsRefs_noq (ns : Str) (hns : '`' ∉ ns) (t : Str) (r : RefDefs) (h : Spec.RefDefs.Sound t r) :
    ∀ j ∈ Spec.joinsRefs ns r, '`' ∉ j.table ∧ '`' ∉ j.alias ∧ '`' ∉ j.parent ∧ '`' ∉ j.field ∧ '`' ∉ j.key := by
  match r with
  | .nil => intro i hi; cases hi
  | .cons f m r =>
    rw [Spec.RefDefs.Sound] at h
    obtain ⟨_, _, hf, _, _, hm, hr⟩ := h
    rw [Spec.joinsRefs]
    intro j hj
    rcases List.mem_append.1 hj with hj | hj
    · rcases List.mem_cons.1 hj with rfl | hj
      · obtain ⟨h1, h2⟩ := sound_names m hm
        exact ⟨h1, noq_append hns hf, hns, hf, h2⟩
      · exact joinsOf_noq _ (noq_append hns hf) m hm j hj
    · exact joinsRefs_noq ns hns t r hr j hj
end

theorem parseItems_eq (l : List (Str × Str)) (hl : l ≠ []) (r : List Spec.Tok) :
    Spec.parseItems (itemsToks l ++ .word "from".toList :: r) = some (l, r) := by
  match l with
  | [] => exact absurd rfl hl
  | [i] =>
    show Spec.parseItems (.name i.1 :: .punct '.' :: .name i.2 :: .word "from".toList :: r) = _
    rw [Spec.parseItems, if_pos rfl]
  | i :: j :: l =>
    show Spec.parseItems (.name i.1 :: .punct '.' :: .name i.2 :: .punct ',' ::
      (itemsToks (j :: l) ++ .word "from".toList :: r)) = _
    rw [Spec.parseItems, parseItems_eq (j :: l) (by simp) r]
    rfl

theorem parseJoins_eq (l : List Spec.Join) : Spec.parseJoins (l.flatMap joinToks) = some l := by
  induction l with
  | nil => rfl
  | cons j l ih =>
    show Spec.parseJoins (.word "join".toList :: .name j.table :: .word "as".toList :: .name j.alias ::
      .word "on".toList :: .punct '(' :: .name j.parent :: .punct '.' :: .name j.field :: .punct '=' ::
      .name j.alias :: .punct '.' :: .name j.key :: .punct ')' :: l.flatMap joinToks) = _
    rw [Spec.parseJoins, if_pos ⟨rfl, rfl, rfl, rfl⟩, ih]
    rfl

end Verif

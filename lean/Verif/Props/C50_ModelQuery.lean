import Verif.Proofs.Orm

/-!
# C50 — a model's query and its row mapping fit together

For definitions as in `Spec.ModelDef.Sound`; what goes wrong for a reference field called like the
model's own table is `C50_own_table`.
-/

namespace Verif

theorem query_select (m : ModelDef) (h : Spec.ModelDef.Sound m) :
    ∃ ts, Spec.tokens (buildQuery m) = some ts ∧ Spec.parseSelect ts =
      some { items := (leaves m).map fun l => (Spec.aliasOf m.table l.1, l.2), table := m.table,
             joins := Spec.joinsOf m.table m } := by
  have ht := (sound_names m h).1
  have a := Reads.joins (joinsOf_noq m.table ht m h)
  have hh : ((Spec.joinsOf m.table m).flatMap joinTextOf).head? ≠ some '`' := by
    cases Spec.joinsOf m.table m with
    | nil => simp
    | cons j l => intro hh; cases hh
  have a := Reads.name m.table ht hh a
  have a := Reads.fixed " from ".toList (ts := [.word "from".toList]) (by decide +kernel) (by decide) a
  have a := Reads.items (itemsAt_noq m.table ht m h) (by intro hh; cases hh) a
  have a := Reads.fixed "select ".toList (ts := [.word "select".toList]) (by decide +kernel) (by decide) a
  refine ⟨.word "select".toList :: (itemsToks (itemsAt m.table m) ++ .word "from".toList ::
      (.name m.table :: (Spec.joinsOf m.table m).flatMap joinToks)), Reads.tokens (s := buildQuery m) ?_, ?_⟩
  · unfold buildQuery
    rw [appendModel_eq m.table m h]
    have e1 : " from `".toList = " from ".toList ++ ['`'] := by decide
    have e2 : "`".toList = ['`'] := by decide
    rw [e1, e2]
    simp only [List.append_assoc, List.nil_append, List.cons_append] at a ⊢
    exact a
  · rw [Spec.parseSelect, if_pos rfl, parseItems_eq _ (itemsAt_ne m.table m h)]
    dsimp only
    rw [parseJoins_eq, itemsAt_eq]
    rfl

/-- The generated text, read by the server, selects the column of every field from the alias its
references lead to, and joins every referenced table under this alias by its key. -/
theorem C50_query (m : ModelDef) (h : Spec.ModelDef.Sound m) :
    ∃ ts q, Spec.tokens (buildQuery m) = some ts ∧ Spec.parseSelect ts = some q ∧
      q.table = m.table ∧ q.joins = Spec.joinsOf m.table m ∧ q.items.Nodup ∧
      ∀ a c, (a, c) ∈ q.items ↔ ∃ p, Spec.HasField m p c ∧ a = Spec.aliasOf m.table p := by
  obtain ⟨ts, h1, h2⟩ := query_select m h
  refine ⟨ts, _, h1, h2, rfl, rfl, ?_, fun a c => ?_⟩
  · dsimp only
    unfold List.Nodup
    rw [List.pairwise_map]
    refine List.Pairwise.imp_of_mem ?_ (leaves_nodup m h)
    intro l l' hl hl' hne he
    have e1 := route_alias m h l.1 l.2 ((mem_leaves m l.1 l.2).1 hl)
    have e2 := route_alias m h l'.1 l'.2 ((mem_leaves m l'.1 l'.2).1 hl')
    rw [(Prod.mk.inj he).1, (Prod.mk.inj he).2, e2] at e1
    exact hne (Prod.ext (Option.some.inj e1).symm (Prod.mk.inj he).2)
  · dsimp only
    rw [List.mem_map]
    constructor
    · rintro ⟨⟨p, c'⟩, hl, he⟩
      cases he
      exact ⟨p, (mem_leaves m p c').1 hl, rfl⟩
    · rintro ⟨p, hp, rfl⟩
      exact ⟨(p, c), (mem_leaves m p c).2 hp, rfl⟩

/-- For every row: mapping the answer to this query gives every field the value of the column selected
for it, and nothing else. -/
theorem C50_fits (m : ModelDef) (h : Spec.ModelDef.Sound m) (ts : List Spec.Tok) (q : Spec.Select)
    (ht : Spec.tokens (buildQuery m) = some ts) (hq : Spec.parseSelect ts = some q)
    (val : Str → Str → Value) :
    ∃ fields, fromMappingAndRow m (fromColumns m q.columns) (q.row val) = .ok fields ∧
      (fields.map (·.1)).Nodup ∧
      ∀ p c v, ((p, c), v) ∈ fields ↔ Spec.HasField m p c ∧ v = val (Spec.aliasOf m.table p) c := by
  obtain ⟨ts', h1, h2⟩ := query_select m h
  rw [ht] at h1
  cases h1
  rw [hq] at h2
  cases h2
  have hf : ∀ l ∈ leaves m, Spec.HasField m l.1 l.2 := fun l hl => (mem_leaves m l.1 l.2).1 hl
  have hmap := fun p c => fromColumnsAt_eq m h (leaves m) hf (leaves_nodup m h) 0 (fun _ _ => none) p c
  have key := readLeaves_eq (fromColumns m ((leaves m).map fun l => (Spec.aliasOf m.table l.1, l.2)))
    (fun l => val (Spec.aliasOf m.table l.1) l.2) (leaves m) (leaves_nodup m h)
    (((leaves m).map fun l => (Spec.aliasOf m.table l.1, l.2)).map fun i => val i.1 i.2) ?_ ?_
  · refine ⟨_, key, ?_, fun p c v => ?_⟩
    · rw [List.map_map]
      have : ((fun x : (List Str × Str) × Value => x.1) ∘ fun l => (l, val (Spec.aliasOf m.table l.1) l.2)) = id := rfl
      rw [this, List.map_id]
      exact leaves_nodup m h
    · rw [List.mem_map]
      constructor
      · rintro ⟨l, hl, he⟩
        cases he
        exact ⟨hf _ hl, rfl⟩
      · rintro ⟨hp, rfl⟩
        exact ⟨(p, c), (mem_leaves m p c).2 hp, rfl⟩
  · intro l hl
    obtain ⟨k, hk⟩ := List.mem_iff_getElem?.1 hl
    refine ⟨0 + k, (hmap l.1 l.2).2 k hk, ?_⟩
    rw [Nat.zero_add, List.getElem?_map, List.getElem?_map, hk]
    rfl
  · intro l hl l' hl' he
    obtain ⟨k, hk⟩ := List.mem_iff_getElem?.1 hl
    obtain ⟨k', hk'⟩ := List.mem_iff_getElem?.1 hl'
    have e1 := (hmap l.1 l.2).2 k hk
    have e2 := (hmap l'.1 l'.2).2 k' hk'
    have : k = k' := by
      have : some (0 + k) = some (0 + k') := by rw [← e1, ← e2]; exact he
      simpa using this
    rw [this, hk'] at hk
    exact (Option.some.inj hk).symm

/-! ### concrete models -/

namespace C50

/-- src/model/test.rs. -/
def map : ModelDef := .mk "map".toList "id".toList
  ["id".toList, "name".toList, "difficulty".toList, "last_played".toList] [] .nil

def entity : ModelDef := .mk "entity".toList "id".toList
  ["id".toList, "name".toList, "heading".toList, "model".toList, "spawn_after".toList]
  [("position".toList, ["x".toList, "y".toList, "z".toList])] (.cons "map".toList map .nil)

-- the text of the repository's own test
example : String.ofList (buildQuery entity) =
    "select `entity`.`id`, `entity`.`name`, `entity`.`heading`, `entity`.`model`, `entity`.`spawn_after`, \
     `entity`.`position_x`, `entity`.`position_y`, `entity`.`position_z`, `entity.map`.`id`, \
     `entity.map`.`name`, `entity.map`.`difficulty`, `entity.map`.`last_played` from `entity` join `map` as \
     `entity.map` on (`entity`.`map` = `entity.map`.`id`)" := by decide +kernel

theorem map_sound : Spec.ModelDef.Sound map :=
  ⟨by decide, by decide, by decide, by decide, by decide +kernel, by decide +kernel, trivial⟩

theorem entity_sound : Spec.ModelDef.Sound entity :=
  ⟨by decide, by decide, by decide, by decide, by decide +kernel, by decide +kernel,
    by decide, by decide, by decide, by decide, trivial, map_sound, trivial⟩

-- two levels, both with a column `id`, and a reference called like the table of another model
def city : ModelDef := .mk "city".toList "id".toList ["id".toList] [] (.cons "entity".toList entity .nil)

theorem city_sound : Spec.ModelDef.Sound city :=
  ⟨by decide, by decide, by decide, by decide, by decide +kernel, by decide +kernel,
    by decide, by decide, by decide, by decide, trivial, entity_sound, trivial⟩

def val (a c : Str) : Value := .bytes (a.map (fun x => UInt8.ofNat x.toNat) ++ [0] ++ c.map fun x => UInt8.ofNat x.toNat)

example : let cs := [("city".toList, "id".toList), ("city.entity".toList, "id".toList),
                     ("city.entity.map".toList, "id".toList)]
    cs.map (fun c => route c.1 c.2 city) =
      [some [], some ["entity".toList], some ["entity".toList, "map".toList]] := by decide +kernel

/-- a model of table `node` with a reference called `node`. -/
def node : ModelDef := .mk "node".toList "id".toList ["id".toList] []
  (.cons "node".toList (.mk "other".toList "id".toList ["id".toList, "x".toList] [] .nil) .nil)

end C50

/-- A reference called like the own table catches the model's own columns: its query is read as
intended, but no answer can be mapped. -/
theorem C50_own_table (val : Str → Str → Value) :
    ∃ ts q, Spec.tokens (buildQuery C50.node) = some ts ∧ Spec.parseSelect ts = some q ∧
      fromMappingAndRow C50.node (fromColumns C50.node q.columns) (q.row val) = .err (.missing [] "id".toList) := by
  have hq : (Spec.tokens (buildQuery C50.node)).bind Spec.parseSelect = some
      { items := [("node".toList, "id".toList), ("node.node".toList, "id".toList), ("node.node".toList, "x".toList)],
        table := "node".toList, joins := Spec.joinsOf "node".toList C50.node } := by decide +kernel
  obtain ⟨ts, h1, h2⟩ := Option.bind_eq_some_iff.1 hq
  refine ⟨ts, _, h1, h2, ?_⟩
  have hm : fromColumns C50.node [("node".toList, "id".toList), ("node.node".toList, "id".toList),
      ("node.node".toList, "x".toList)] [] "id".toList = none := by decide +kernel
  have hl : leaves C50.node = ([], "id".toList) :: [(["node".toList], "id".toList), (["node".toList], "x".toList)] := by
    decide +kernel
  unfold fromMappingAndRow
  rw [hl, readLeaves]
  dsimp only [Spec.Select.columns]
  rw [hm]

/-- … and where such a model is itself referenced, values are mixed up silently: the column
`a.mid.mid.leaf.id` arrives in the field `mid.leaf.id`, the column selected for which is lost. -/
theorem C50_own_table_nested :
    let leaf := ModelDef.mk "leaf".toList "id".toList ["id".toList] [] .nil
    let inner := ModelDef.mk "inner".toList "id".toList ["id".toList] [] (.cons "leaf".toList leaf .nil)
    let mid := ModelDef.mk "mid".toList "id".toList ["id".toList] []
      (.cons "leaf".toList leaf (.cons "mid".toList inner .nil))
    let a := ModelDef.mk "a".toList "id".toList ["id".toList] [] (.cons "mid".toList mid .nil)
    route "a.mid.leaf".toList "id".toList a = some ["mid".toList, "leaf".toList] ∧
    route "a.mid.mid.leaf".toList "id".toList a = some ["mid".toList, "leaf".toList] := by
  decide +kernel

end Verif

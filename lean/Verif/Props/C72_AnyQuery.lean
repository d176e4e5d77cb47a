import Verif.Props.C65_ModelQuery

/-! # C72 — rows of any query are read as models by the tables and names of their columns -/

namespace Verif

open Spec (HasField HasRef)

/-- the last of the columns `ks` with the key `k`. -/
def Spec.LastColumn (ks : List (Str × Str)) (k : Str × Str) (i : Nat) : Prop :=
  ks[i]? = some k ∧ ∀ j, i < j → ks[j]? ≠ some k

mutual
theorem route_field (m : ModelDef) (t c : Str) (p : List Str) (h : route t c m = some p) : HasField m p c := by
  match m with
  | .mk tb k plain structs refs =>
    rw [route] at h
    exact routeInner_field (ModelDef.mk tb k plain structs refs) refs _ c _ p h (fun hc => .own hc)
      (fun hr => .sub hr)

theorem routeInner_field (m : ModelDef) (r : RefDefs) (t c : Str) (cols : List Str) (p : List Str)
    (h : routeInner t c cols r = some p) (hown : c ∈ cols → HasField m [] c)
    (hsub : HasRef r p c → HasField m p c) : HasField m p c := by
  match r with
  | .nil =>
    rw [routeInner] at h
    split at h
    · cases h
      exact hown ‹_›
    · cases h
  | .cons f m' r =>
    rw [routeInner] at h
    split at h
    · obtain ⟨q, hq, rfl⟩ := Option.map_eq_some_iff.1 h
      exact hsub (.here (route_field m' _ c q hq))
    · split at h
      · obtain ⟨q, hq, rfl⟩ := Option.map_eq_some_iff.1 h
        exact hsub (.here (route_field m' _ c q hq))
      · exact routeInner_field m r t c cols p h hown (fun hr => hsub (.there hr))
end

mutual
theorem route_same (m : ModelDef) (t c c' : Str) (p p' : List Str) (h : route t c m = some p)
    (h' : route t c' m = some p') : p = p' := by
  match m with
  | .mk tb k plain structs refs =>
    rw [route] at h h'
    exact routeInner_same refs _ c c' _ p p' h h'

theorem routeInner_same (r : RefDefs) (t c c' : Str) (cols : List Str) (p p' : List Str)
    (h : routeInner t c cols r = some p) (h' : routeInner t c' cols r = some p') : p = p' := by
  match r with
  | .nil =>
    rw [routeInner] at h h'
    split at h
    · split at h'
      · cases h; cases h'; rfl
      · cases h'
    · cases h
  | .cons f m r =>
    rw [routeInner] at h h'
    split at h
    · rename_i e
      rw [if_pos e] at h'
      obtain ⟨q, hq, rfl⟩ := Option.map_eq_some_iff.1 h
      obtain ⟨q', hq', rfl⟩ := Option.map_eq_some_iff.1 h'
      rw [route_same m _ c c' q q' hq hq']
    · rename_i e
      rw [if_neg e] at h'
      split at h
      · rename_i e
        rw [if_pos e] at h'
        obtain ⟨q, hq, rfl⟩ := Option.map_eq_some_iff.1 h
        obtain ⟨q', hq', rfl⟩ := Option.map_eq_some_iff.1 h'
        rw [route_same m _ c c' q q' hq hq']
      · rename_i e
        rw [if_neg e] at h'
        exact routeInner_same r t c c' cols p p' h h'
end

/-- A column of an alias that references lead to goes to the field of its name there, or nowhere. -/
theorem route_path (m : ModelDef) (h : Spec.ModelDef.Sound m) (p : List Str) (c0 c : Str)
    (hp : HasField m p c0) (q : List Str) :
    route (Spec.aliasOf m.table p) c m = some q ↔ q = p ∧ HasField m p c := by
  constructor
  · intro hq
    have e := route_same m _ c c0 q p hq (route_alias m h p c0 hp)
    subst e
    exact ⟨rfl, route_field m _ c q hq⟩
  · rintro ⟨rfl, hf⟩
    exact route_alias m h q c hf

theorem aliasOf_inj (m : ModelDef) (h : Spec.ModelDef.Sound m) {p p' : List Str} {c c' : Str}
    (hp : HasField m p c) (hp' : HasField m p' c')
    (he : Spec.aliasOf m.table p = Spec.aliasOf m.table p') : p = p' :=
  route_same m _ c c' p p' (route_alias m h p c hp) (by rw [he]; exact route_alias m h p' c' hp')

/-- the alias of every column is one that references lead to. -/
def Spec.OwnAliases (m : ModelDef) (ks : List (Str × Str)) : Prop :=
  ∀ k ∈ ks, ∃ p c, HasField m p c ∧ k.1 = Spec.aliasOf m.table p

theorem fromColumnsAt_last (m : ModelDef) (h : Spec.ModelDef.Sound m) (ks : List (Str × Str))
    (hk : Spec.OwnAliases m ks) (i : Nat) (mp : Mapping) (p : List Str) (c : Str) (hf : HasField m p c) :
    (∃ j, Spec.LastColumn ks (Spec.aliasOf m.table p, c) j ∧ fromColumnsAt m i ks mp p c = some (i + j)) ∨
    ((Spec.aliasOf m.table p, c) ∉ ks ∧ fromColumnsAt m i ks mp p c = mp p c) := by
  induction ks generalizing i mp with
  | nil => exact .inr ⟨by simp, rfl⟩
  | cons k ks ih =>
    obtain ⟨t, c1⟩ := k
    obtain ⟨q, c0, hq, ht⟩ := hk _ (List.mem_cons_self ..)
    dsimp only at ht
    rw [fromColumnsAt]
    rcases ih (fun k hk' => hk k (List.mem_cons_of_mem _ hk')) (i + 1) (match route t c1 m with
       | some p => mp.set p c1 i
       | none => mp) with ⟨j, ⟨h1, h2⟩, h3⟩ | ⟨h1, h2⟩
    · refine .inl ⟨j + 1, ⟨by simpa using h1, ?_⟩, ?_⟩
      · intro j' hj'
        cases j' with
        | zero => omega
        | succ j' => simpa using h2 j' (by omega)
      · refine h3.trans ?_
        congr 1
        omega
    · by_cases e : (Spec.aliasOf m.table p, c) = (t, c1)
      · cases e
        refine .inl ⟨0, ⟨rfl, ?_⟩, ?_⟩
        · intro j hj hh
          cases j with
          | zero => omega
          | succ j => exact h1 (List.mem_of_getElem? (by simpa using hh))
        · refine h2.trans ?_
          rw [route_alias m h p c hf]
          simp [Mapping.set]
      · refine .inr ⟨?_, ?_⟩
        · rw [List.mem_cons, not_or]
          exact ⟨e, h1⟩
        · refine h2.trans ?_
          cases hr : route t c1 m with
          | none => rfl
          | some q' =>
            dsimp only
            unfold Mapping.set
            rw [if_neg]
            rintro ⟨rfl, rfl⟩
            rw [ht, route_path m h q c0 c hq p] at hr
            obtain ⟨rfl, -⟩ := hr
            exact e (by rw [ht])

theorem mapping_last (m : ModelDef) (h : Spec.ModelDef.Sound m) (ks : List (Str × Str))
    (hk : Spec.OwnAliases m ks) (p : List Str) (c : Str) (hf : HasField m p c) :
    (∃ j, Spec.LastColumn ks (Spec.aliasOf m.table p, c) j ∧ fromColumns m ks p c = some j) ∨
    ((Spec.aliasOf m.table p, c) ∉ ks ∧ fromColumns m ks p c = none) := by
  rcases fromColumnsAt_last m h ks hk 0 (fun _ _ => none) p c hf with ⟨j, h1, h2⟩ | h1
  · exact .inl ⟨j, h1, by rw [Nat.zero_add] at h2; exact h2⟩
  · exact .inr h1

theorem readFields_cases {X : Type} (conv : List Str × Str → Value → Out ParseError X) (mp : Mapping)
    (hc : ∀ l v, conv l v ≠ .panic) (ls : List (List Str × Str)) (hn : ls.Nodup) (row : List Value)
    (hi : ∀ l ∈ ls, ∀ k, mp l.1 l.2 = some k → ∃ v, row[k]? = some v)
    (hd : ∀ l ∈ ls, ∀ l' ∈ ls, ∀ k, mp l.1 l.2 = some k → mp l'.1 l'.2 = some k → l = l') :
    (∃ xs, readFields conv mp ls row = .ok xs ∧ xs.map Prod.fst = ls ∧
      ∀ l x, (l, x) ∈ xs → ∃ k v, mp l.1 l.2 = some k ∧ row[k]? = some v ∧ conv l v = .ok x) ∨
    ∃ e, readFields conv mp ls row = .err e ∧ ∃ l ∈ ls, (mp l.1 l.2 = none ∧ e = .missingField l.2) ∨
      ∃ k v, mp l.1 l.2 = some k ∧ row[k]? = some v ∧ conv l v = .err e := by
  induction ls generalizing row with
  | nil => exact .inl ⟨[], rfl, rfl, (by intro l x h; cases h)⟩
  | cons l ls ih =>
    rw [List.nodup_cons] at hn
    obtain ⟨p, c⟩ := l
    rw [readFields]
    cases hm : mp p c with
    | none => exact .inr ⟨_, rfl, (p, c), List.mem_cons_self .., .inl ⟨hm, rfl⟩⟩
    | some k =>
      obtain ⟨v, hv⟩ := hi (p, c) (List.mem_cons_self ..) k hm
      dsimp only
      rw [hv]
      dsimp only
      cases hcv : conv (p, c) v with
      | panic => exact absurd hcv (hc _ _)
      | err e => exact .inr ⟨e, rfl, (p, c), List.mem_cons_self .., .inr ⟨k, v, hm, hv, hcv⟩⟩
      | ok x =>
        dsimp only
        have other : ∀ l ∈ ls, ∀ k', mp l.1 l.2 = some k' → (row.set k .null)[k']? = row[k']? := by
          intro l hl k' hk'
          have : k ≠ k' := by
            rintro rfl
            have := hd (p, c) (List.mem_cons_self ..) l (List.mem_cons_of_mem _ hl) k hm hk'
            rw [this] at hn
            exact hn.1 hl
          rw [List.getElem?_set_ne this]
        rcases ih hn.2 (row.set k .null)
          (fun l hl k' hk' => by
            rw [other l hl k' hk']
            exact hi l (List.mem_cons_of_mem _ hl) k' hk')
          (fun l hl l' hl' => hd l (List.mem_cons_of_mem _ hl) l' (List.mem_cons_of_mem _ hl')) with
          ⟨xs, g1, g2, g3⟩ | ⟨e, g1, l, hl, g2⟩
        · refine .inl ⟨((p, c), x) :: xs, by rw [g1], by rw [List.map_cons, g2], ?_⟩
          intro l y hy
          rcases List.mem_cons.1 hy with hy | hy
          · cases hy
            exact ⟨k, v, hm, hv, hcv⟩
          · obtain ⟨k', v', g4, g5, g6⟩ := g3 l y hy
            have hl : l ∈ ls := by rw [← g2]; exact List.mem_map.2 ⟨(l, y), hy, rfl⟩
            exact ⟨k', v', g4, by rw [← other l hl k' g4]; exact g5, g6⟩
        · refine .inr ⟨e, by rw [g1], l, List.mem_cons_of_mem _ hl, ?_⟩
          rcases g2 with g2 | ⟨k', v', g4, g5, g6⟩
          · exact .inl g2
          · exact .inr ⟨k', v', g4, by rw [← other l hl k' g4]; exact g5, g6⟩

/-- the field `c` along the references `p` can be read from the row, as `x`: from the last column of the alias
and the name. -/
def Spec.FieldReads {X : Type} (conv : List Str × Str → Value → Out ParseError X) (m : ModelDef)
    (ks : List (Str × Str)) (row : List Value) (p : List Str) (c : Str) (o : Out ParseError X) : Prop :=
  ∃ i v, Spec.LastColumn ks (Spec.aliasOf m.table p, c) i ∧ row[i]? = some v ∧ conv (p, c) v = o

theorem lastColumn_unique {ks : List (Str × Str)} {k : Str × Str} {i j : Nat} (hi : Spec.LastColumn ks k i)
    (hj : Spec.LastColumn ks k j) : i = j := by
  rcases Nat.lt_trichotomy i j with h | h | h
  · exact absurd hj.1 (hi.2 j h)
  · exact h
  · exact absurd hi.1 (hj.2 i h)

theorem build_cases {X : Type} (conv : List Str × Str → Value → Out ParseError X) (m : ModelDef)
    (h : Spec.ModelDef.Sound m) (hc : ∀ l v, conv l v ≠ .panic) (cols : List Column) (row : List Value)
    (hl : row.length = cols.length) (hk : Spec.OwnAliases m (columnKeys cols)) :
    (∃ obj, buildModel conv m cols row = .ok obj ∧ obj.map Prod.fst = leaves m ∧
      ∀ p c x, ((p, c), x) ∈ obj → Spec.FieldReads conv m (columnKeys cols) row p c (.ok x)) ∨
    ∃ e p c, buildModel conv m cols row = .err e ∧ HasField m p c ∧
      ((Spec.aliasOf m.table p, c) ∉ columnKeys cols ∧ e = .missingField c ∨
       Spec.FieldReads conv m (columnKeys cols) row p c (.err e)) := by
  have hf : ∀ l ∈ leaves m, HasField m l.1 l.2 := fun l hl => (mem_leaves m l.1 l.2).1 hl
  have hlast : ∀ p c k, HasField m p c → fromColumns m (columnKeys cols) p c = some k →
      Spec.LastColumn (columnKeys cols) (Spec.aliasOf m.table p, c) k := by
    intro p c k hp hk'
    rcases mapping_last m h _ hk p c hp with ⟨j, h1, h2⟩ | ⟨_, h2⟩
    · rw [hk'] at h2
      cases h2
      exact h1
    · rw [hk'] at h2
      cases h2
  rcases readFields_cases conv (fromColumns m (columnKeys cols)) hc (leaves m) (leaves_nodup m h) row
    (fun l hl' k hk' => by
      have hlt := (List.getElem?_eq_some_iff.1 (hlast l.1 l.2 k (hf l hl') hk').1).1
      have : k < row.length := by rw [hl]; simpa [columnKeys] using hlt
      exact ⟨row[k], List.getElem?_eq_getElem this⟩)
    (fun l hl1 l' hl2 k h1 h2 => by
      have e1 := (hlast l.1 l.2 k (hf l hl1) h1).1
      have e2 := (hlast l'.1 l'.2 k (hf l' hl2) h2).1
      rw [e1] at e2
      have e3 := Prod.mk.inj (Option.some.inj e2)
      exact Prod.ext (aliasOf_inj m h (hf l hl1) (hf l' hl2) e3.1) e3.2) with
    ⟨xs, g1, g2, g3⟩ | ⟨e, g1, l, hl', g2⟩
  · refine .inl ⟨xs, g1, g2, fun p c x hx => ?_⟩
    obtain ⟨k, v, h1, h2, h3⟩ := g3 (p, c) x hx
    have hm : (p, c) ∈ leaves m := by rw [← g2]; exact List.mem_map.2 ⟨_, hx, rfl⟩
    exact ⟨k, v, hlast p c k (hf _ hm) h1, h2, h3⟩
  · refine .inr ⟨e, l.1, l.2, g1, hf l hl', ?_⟩
    rcases g2 with ⟨h1, h2⟩ | ⟨k, v, h1, h2, h3⟩
    · refine .inl ⟨?_, h2⟩
      rcases mapping_last m h _ hk l.1 l.2 (hf l hl') with ⟨j, _, h4⟩ | ⟨h4, _⟩
      · rw [h1] at h4
        cases h4
      · exact h4
    · exact .inr ⟨k, v, hlast l.1 l.2 k (hf l hl') h1, h2, h3⟩

/-- If every field has a column, and its value converts, the row is read: exactly the fields of the model and
of the models it refers to, each from the last column of its alias and name.  Other columns do no harm.
Missing: results with columns of other aliases (`C72_foreign_violated`). -/
theorem C72_reads_partial {X : Type} (conv : List Str × Str → Value → Out ParseError X) (m : ModelDef)
    (h : Spec.ModelDef.Sound m) (hc : ∀ l v, conv l v ≠ .panic) (cols : List Column) (row : List Value)
    (hl : row.length = cols.length) (hk : Spec.OwnAliases m (columnKeys cols))
    (hall : ∀ p c, HasField m p c → ∃ x, Spec.FieldReads conv m (columnKeys cols) row p c (.ok x)) :
    ∃ obj, buildModel conv m cols row = .ok obj ∧ (obj.map Prod.fst).Nodup ∧
      ∀ p c x, ((p, c), x) ∈ obj ↔
        HasField m p c ∧ Spec.FieldReads conv m (columnKeys cols) row p c (.ok x) := by
  have uniq : ∀ p c o o', Spec.FieldReads conv m (columnKeys cols) row p c o →
      Spec.FieldReads conv m (columnKeys cols) row p c o' → o = o' := by
    rintro p c o o' ⟨i, v, h1, h2, h3⟩ ⟨j, w, g1, g2, g3⟩
    have := lastColumn_unique h1 g1
    subst this
    rw [h2] at g2
    cases g2
    rw [← h3, ← g3]
  rcases build_cases conv m h hc cols row hl hk with ⟨obj, h1, h2, h3⟩ | ⟨e, p, c, _, h2, h3⟩
  · refine ⟨obj, h1, by rw [h2]; exact leaves_nodup m h, fun p c x => ⟨fun hx => ⟨?_, h3 p c x hx⟩, ?_⟩⟩
    · have hm : (p, c) ∈ leaves m := by rw [← h2]; exact List.mem_map.2 ⟨_, hx, rfl⟩
      exact (mem_leaves m p c).1 hm
    · rintro ⟨hp, hx⟩
      have hm := (mem_leaves m p c).2 hp
      rw [← h2] at hm
      obtain ⟨⟨l, y⟩, hy, hye⟩ := List.mem_map.1 hm
      dsimp only at hye
      subst hye
      have := uniq p c _ _ hx (h3 p c y hy)
      injection this with this
      rw [this]
      exact hy
  · obtain ⟨x, hx⟩ := hall p c h2
    rcases h3 with ⟨h3, -⟩ | h3
    · obtain ⟨i, v, h4, -, -⟩ := hx
      exact absurd (List.mem_of_getElem? h4.1) h3
    · have := uniq p c _ _ hx h3
      cases this

/-- Otherwise reading fails, never with a panic: a field of the model is named that has no column, or the error is
that of converting the value of the column of a field. -/
theorem C72_fails_partial {X : Type} (conv : List Str × Str → Value → Out ParseError X) (m : ModelDef)
    (h : Spec.ModelDef.Sound m) (hc : ∀ l v, conv l v ≠ .panic) (cols : List Column) (row : List Value)
    (hl : row.length = cols.length) (hk : Spec.OwnAliases m (columnKeys cols))
    (hnot : ¬ ∀ p c, HasField m p c → ∃ x, Spec.FieldReads conv m (columnKeys cols) row p c (.ok x)) :
    ∃ e p c, buildModel conv m cols row = .err e ∧ HasField m p c ∧
      ((Spec.aliasOf m.table p, c) ∉ columnKeys cols ∧ e = .missingField c ∨
       Spec.FieldReads conv m (columnKeys cols) row p c (.err e)) := by
  rcases build_cases conv m h hc cols row hl hk with ⟨obj, h1, h2, h3⟩ | h1
  · refine absurd (fun p c hp => ?_) hnot
    have hm := (mem_leaves m p c).2 hp
    rw [← h2] at hm
    obtain ⟨⟨l, y⟩, hy, hye⟩ := List.mem_map.1 hm
    dsimp only at hye
    subst hye
    exact ⟨y, h3 p c y hy⟩
  · exact h1

/-! ### concrete results -/

namespace C72ex

def col (t c : String) : Column :=
  { orgName := c.toList, name := c.toList, orgTable := t.toList, table := t.toList, type := .long, flags := 0 }

def conv (_ : List Str × Str) (v : Value) : Out ParseError Value := .ok v

def user : ModelDef := .mk "user".toList "id".toList ["id".toList, "name".toList] [] .nil

theorem user_sound : Spec.ModelDef.Sound user :=
  ⟨by decide, by decide, by decide, by decide, by decide +kernel, by decide +kernel, trivial⟩

end C72ex

open C72ex in
/-- Columns in another order, one twice and one that belongs to no field: the last one counts, the unknown one is
ignored. -/
theorem C72_example :
    Spec.OwnAliases user (columnKeys [col "user" "name", col "user" "age", col "user" "id", col "user" "name"]) ∧
    buildModel conv user [col "user" "name", col "user" "age", col "user" "id", col "user" "name"]
      [.bytes [1], .tiny 2, .uint 3, .bytes [4]]
      = .ok [(([], "id".toList), .uint 3), (([], "name".toList), .bytes [4])] := by
  constructor
  · intro k hk
    have hu : HasField user [] "id".toList := .own (by decide)
    simp only [columnKeys, List.map_cons, List.map_nil, List.mem_cons, List.not_mem_nil, or_false] at hk
    rcases hk with rfl | rfl | rfl | rfl <;> exact ⟨[], _, hu, by decide⟩
  · decide +kernel

open C72ex in
/-- A field without a column is named in the error. -/
theorem C72_example_missing :
    buildModel conv user [col "user" "id", col "user" "age"] [.uint 3, .tiny 2]
      = .err (.missingField "name".toList) := by decide +kernel

open C72ex in
/-- A column of a table that the model knows nothing of is taken for the model's own: in the result of
`select user.id, user.name, invoice.id from user join invoice`, the user gets the number of the invoice. -/
theorem C72_foreign_violated :
    buildModel conv user [col "user" "id", col "user" "name", col "invoice" "id"]
      [.uint 3, .bytes [4], .uint 99]
      = .ok [(([], "id".toList), .uint 99), (([], "name".toList), .bytes [4])] := by decide +kernel

open C72ex in
/-- The same below a reference: what follows the name of a reference is ignored when it is unknown. -/
theorem C72_foreign_nested_violated :
    let post := ModelDef.mk "post".toList "id".toList ["id".toList] [] (.cons "author".toList user .nil)
    buildModel conv post
      [col "post" "id", col "post.author" "id", col "post.author" "name", col "post.author.boss" "name"]
      [.uint 1, .uint 3, .bytes [4], .bytes [5]]
      = .ok [(([], "id".toList), .uint 1), ((["author".toList], "id".toList), .uint 3),
          ((["author".toList], "name".toList), .bytes [5])] := by decide +kernel

end Verif

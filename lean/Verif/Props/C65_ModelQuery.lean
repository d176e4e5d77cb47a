import Verif.Model.ModelQuery
import Verif.Proofs.Relational
import Verif.Props.C12_Iteration
import Verif.Props.C50_ModelQuery

/-!
# C65 — querying a model returns the stored rows with their references

From the model definition over the generated text, the rows a server computes for it, their bytes on
the wire, to the values of the fields.
-/

namespace Verif

open Spec (HasField HasRef Rec Joined Database refModel)

/-! ### aliases -/

theorem not_below {ns f k : Str} (hf : '.' ∉ f) (hk : '.' ∉ k) (hne : k ≠ f) (x z : Str)
    (hx : x = [] ∨ ∃ y, x = '.' :: y) (hz : z = [] ∨ ∃ y, z = '.' :: y) :
    ns ++ '.' :: f ++ x ≠ ns ++ '.' :: k ++ z := by
  intro h
  rw [List.append_assoc, List.append_assoc] at h
  have h := List.append_cancel_left h
  rw [List.cons_append, List.cons_append] at h
  injection h with _ h
  have e1 : f ++ x ++ ['.'] = f ++ '.' :: ((x ++ ['.']).drop 1) := by
    rcases hx with rfl | ⟨y, rfl⟩ <;> simp
  have e2 : k ++ z ++ ['.'] = k ++ '.' :: ((z ++ ['.']).drop 1) := by
    rcases hz with rfl | ⟨y, rfl⟩ <;> simp
  exact hne (split_point hf hk (by rw [← e1, ← e2, h] : f ++ '.' :: _ = k ++ '.' :: _)).1.symm

theorem joins_scoped (m : ModelDef) : ∀ (ns : Str) (known : List Str) (js : List Spec.Join),
    Spec.ModelDef.Sound m → ns ∈ known → (∀ y, ns ++ '.' :: y ∉ known) →
    ∃ known', Spec.joinsScoped known (Spec.joinsOf ns m ++ js) = Spec.joinsScoped known' js ∧
      (∀ a ∈ known', a ∈ known ∨ ∃ y, a = ns ++ '.' :: y) ∧ known ⊆ known' ∧
      ∀ p c, HasField m p c → Spec.aliasOf ns p ∈ known' := by
  refine ModelDef.rec
    (motive_1 := fun m => ∀ (ns : Str) (known : List Str) (js : List Spec.Join),
      Spec.ModelDef.Sound m → ns ∈ known → (∀ y, ns ++ '.' :: y ∉ known) →
      ∃ known', Spec.joinsScoped known (Spec.joinsOf ns m ++ js) = Spec.joinsScoped known' js ∧
        (∀ a ∈ known', a ∈ known ∨ ∃ y, a = ns ++ '.' :: y) ∧ known ⊆ known' ∧
        ∀ p c, HasField m p c → Spec.aliasOf ns p ∈ known')
    (motive_2 := fun rs => ∀ (t ns : Str) (known : List Str) (js : List Spec.Join),
      Spec.RefDefs.Sound t rs → ns ∈ known →
      (∀ f, refModel f rs ≠ none → ∀ x, (x = [] ∨ ∃ y, x = '.' :: y) → ns ++ '.' :: f ++ x ∉ known) →
      ∃ known', Spec.joinsScoped known (Spec.joinsRefs ns rs ++ js) = Spec.joinsScoped known' js ∧
        (∀ a ∈ known', a ∈ known ∨ ∃ y, a = ns ++ '.' :: y) ∧ known ⊆ known' ∧
        ∀ p c, HasRef rs p c → Spec.aliasOf ns p ∈ known')
    ?_ ?_ ?_ m
  · intro t p plain structs refs ih ns known js hs hn hk
    rw [Spec.ModelDef.Sound] at hs
    obtain ⟨known', h1, h2, h3, h4⟩ := ih t ns known js hs.2.2.2.2.2.2 hn fun f _ x _ => by
      rw [List.append_assoc, List.cons_append]; exact hk _
    refine ⟨known', by rw [Spec.joinsOf]; exact h1, h2, h3, fun q c hq => ?_⟩
    cases hq with
    | own _ => rw [aliasOf_nil]; exact h3 hn
    | sub hr => exact h4 q c hr
  · intro t ns known js _ _ _
    refine ⟨known, by rw [Spec.joinsRefs]; rfl, fun a ha => .inl ha, fun a ha => ha, fun p c h => ?_⟩
    cases h
  · intro f m rest ih1 ih2 t ns known js hs hn hk
    rw [Spec.RefDefs.Sound] at hs
    obtain ⟨_, hpt, _, _, hfresh, hsm, hsr⟩ := hs
    have hf : refModel f (.cons f m rest) ≠ none := by simp [refModel]
    have hnew : ns ++ '.' :: f ∉ known := by simpa using hk f hf [] (.inl rfl)
    rw [Spec.joinsRefs, List.cons_append, List.cons_append, Spec.joinsScoped]
    dsimp only
    rw [if_pos ⟨hn, hnew⟩, List.append_assoc]
    obtain ⟨k1, a1, a2, a3, a4⟩ := ih1 (ns ++ '.' :: f) ((ns ++ '.' :: f) :: known)
      (Spec.joinsRefs ns rest ++ js) hsm (List.mem_cons_self ..) fun y hy => by
        rcases List.mem_cons.1 hy with hy | hy
        · exact append_ne_self '.' hy
        · exact hk f hf ('.' :: y) (.inr ⟨y, rfl⟩) hy
    have hn1 : ns ∈ k1 := a3 (List.mem_cons_of_mem _ hn)
    obtain ⟨k2, b1, b2, b3, b4⟩ := ih2 t ns k1 js hsr hn1 fun g hg x hx hmem => by
      have hgp := refModel_point hsr hg
      have hgf : g ≠ f := by rintro rfl; exact hg (refModel_fresh hfresh)
      have hg' : refModel g (.cons f m rest) ≠ none := by
        rw [refModel, if_neg (Ne.symm hgf)]; exact hg
      rcases a2 _ hmem with h | ⟨y, h⟩
      · rcases List.mem_cons.1 h with h | h
        · exact not_below (ns := ns) hgp hpt (Ne.symm hgf) x [] hx (.inl rfl) (by simpa using h)
        · exact hk g hg' x hx h
      · exact not_below (ns := ns) hgp hpt (Ne.symm hgf) x ('.' :: y) hx (.inr ⟨y, rfl⟩) (by simpa using h)
    refine ⟨k2, by rw [a1, b1], fun a ha => ?_, fun a ha => b3 (a3 (List.mem_cons_of_mem _ ha)),
      fun p c hp => ?_⟩
    · rcases b2 a ha with h | h
      · rcases a2 a h with h | ⟨y, h⟩
        · rcases List.mem_cons.1 h with h | h
          · exact .inr ⟨f, h⟩
          · exact .inl h
        · exact .inr ⟨f ++ '.' :: y, by rw [h]; simp⟩
      · exact .inr h
    · cases hp with
      | here h => rw [← aliasOf_cons]; exact b3 (a4 _ c h)
      | there h => exact b4 p c h

/-! ### the rows -/

open Classical in
/-- The server accepts the generated query (aliases are introduced once, before their use), and
evaluating it gives one row for every row of the model's table all of whose references lead somewhere,
with the columns of the rows the references lead to. -/
theorem C65_rows (m : ModelDef) (h : Spec.ModelDef.Sound m) (db : Database) (hk : db.Keyed m) :
    ∃ ts q, Spec.tokens (buildQuery m) = some ts ∧ Spec.parseSelect ts = some q ∧ q.Scoped ∧
      List.Forall₂ (fun row r => ∃ e : Joined, (∀ p c, HasField m p c →
          db.follow m r p = some (e (Spec.aliasOf m.table p))) ∧ row = q.items.map fun i => e i.1 i.2)
        (db.select q) ((db.rows m.table).filter fun r => db.Complete m r) := by
  obtain ⟨ts, h1, h2⟩ := query_select m h
  refine ⟨ts, _, h1, h2, ?_, ?_⟩
  · obtain ⟨known, a1, _, _, a4⟩ := joins_scoped m m.table [m.table] [] h (List.mem_cons_self ..) fun y hy =>
      append_ne_self '.' (List.mem_singleton.1 hy)
    refine ⟨known, by simpa [Spec.joinsScoped] using a1, ?_⟩
    intro i hi
    obtain ⟨l, hl, rfl⟩ := List.mem_map.1 hi
    exact a4 l.1 l.2 ((mem_leaves m l.1 l.2).1 hl)
  · unfold Database.select
    dsimp only
    generalize db.rows m.table = rows
    induction rows with
    | nil => exact .nil
    | cons r rows ih =>
      rw [List.flatMap_cons]
      have hj := join_extend db m m.table r (fun _ => r) [] hk rfl
      rw [List.append_nil] at hj
      rw [hj]
      by_cases hc : db.Complete m r
      · obtain ⟨e, he⟩ := extend_some db m m.table r (fun _ => r) h hc
        rw [List.filter_cons_of_pos (by simpa using hc), he]
        refine List.Forall₂.cons ⟨e, ?_, rfl⟩ ih
        exact extend_follow db m m.table r (fun _ => r) e h rfl he
      · rw [List.filter_cons_of_neg (by simpa using hc)]
        cases he : extend db m.table r m fun _ => r with
        | none => exact ih
        | some e =>
          refine absurd (fun p c hp => ?_) hc
          exact ⟨_, extend_follow db m m.table r (fun _ => r) e h rfl he p c hp⟩

/-! ### reading them -/

theorem readFields_eq {X : Type} (conv : List Str × Str → Value → Out ParseError X) (mp : Mapping)
    (ls : List (List Str × Str)) (hn : ls.Nodup) (row : List Value)
    (hi : ∀ l ∈ ls, ∃ k v x, mp l.1 l.2 = some k ∧ row[k]? = some v ∧ conv l v = .ok x)
    (hd : ∀ l ∈ ls, ∀ l' ∈ ls, mp l.1 l.2 = mp l'.1 l'.2 → l = l') :
    ∃ xs, readFields conv mp ls row = .ok xs ∧ xs.map Prod.fst = ls ∧
      ∀ l x, (l, x) ∈ xs → ∃ k v, mp l.1 l.2 = some k ∧ row[k]? = some v ∧ conv l v = .ok x := by
  induction ls generalizing row with
  | nil => exact ⟨[], rfl, rfl, (by intro l x h; cases h)⟩
  | cons l ls ih =>
    rw [List.nodup_cons] at hn
    obtain ⟨k, v, x, h1, h2, h3⟩ := hi l (List.mem_cons_self ..)
    obtain ⟨p, c⟩ := l
    have other : ∀ l ∈ ls, ∀ k', mp l.1 l.2 = some k' → (row.set k .null)[k']? = row[k']? := by
      intro l hl k' hk'
      have : k ≠ k' := by
        intro hh
        have := hd (p, c) (List.mem_cons_self ..) l (List.mem_cons_of_mem _ hl) (by rw [h1, hk', hh])
        rw [this] at hn
        exact hn.1 hl
      rw [List.getElem?_set_ne this]
    obtain ⟨xs, g1, g2, g3⟩ := ih hn.2 (row.set k .null)
      (fun l hl => by
        obtain ⟨k', v', x', h4, h5, h6⟩ := hi l (List.mem_cons_of_mem _ hl)
        exact ⟨k', v', x', h4, by rw [other l hl k' h4]; exact h5, h6⟩)
      fun l hl l' hl' => hd l (List.mem_cons_of_mem _ hl) l' (List.mem_cons_of_mem _ hl')
    refine ⟨((p, c), x) :: xs, ?_, by rw [List.map_cons, g2], ?_⟩
    · rw [readFields, h1]
      dsimp only
      rw [h2]
      dsimp only
      rw [h3]
      dsimp only
      rw [g1]
    · intro l y hy
      rcases List.mem_cons.1 hy with hy | hy
      · cases hy
        exact ⟨k, v, h1, h2, h3⟩
      · obtain ⟨k', v', g4, g5, g6⟩ := g3 l y hy
        have hl : l ∈ ls := by rw [← g2]; exact List.mem_map.2 ⟨(l, y), hy, rfl⟩
        exact ⟨k', v', g4, by rw [← other l hl k' g4]; exact g5, g6⟩

/-- the value of a model for the row `r` of its table: exactly the fields of the model, each converted
from a value that means what is stored in the row its path leads to. -/
def IsObject {X : Type} (conv : List Str × Str → Value → Out ParseError X) (db : Database)
    (m : ModelDef) (obj : List ((List Str × Str) × X)) (r : Rec) : Prop :=
  (obj.map Prod.fst).Nodup ∧ (∀ l ∈ obj.map Prod.fst, HasField m l.1 l.2) ∧
  ∀ p c, HasField m p c → ∃ r' v x, db.follow m r p = some r' ∧ Spec.meaning v = r' c ∧
    conv (p, c) v = .ok x ∧ ((p, c), x) ∈ obj

theorem build_object {X : Type} (conv : List Str × Str → Value → Out ParseError X) (m : ModelDef)
    (h : Spec.ModelDef.Sound m) (db : Database) (cols : List Column)
    (hcols : columnKeys cols = (leaves m).map fun l => (Spec.aliasOf m.table l.1, l.2))
    (r : Rec) (e : Joined)
    (he : ∀ p c, HasField m p c → db.follow m r p = some (e (Spec.aliasOf m.table p)))
    (vs : List Value)
    (hv : vs.map Spec.meaning = ((leaves m).map fun l => (Spec.aliasOf m.table l.1, l.2)).map fun i => e i.1 i.2)
    (hconv : ∀ p c v r', HasField m p c → db.follow m r p = some r' → Spec.meaning v = r' c →
      ∃ x, conv (p, c) v = .ok x) :
    ∃ obj, buildModel conv m cols vs = .ok obj ∧ IsObject conv db m obj r := by
  have hf : ∀ l ∈ leaves m, HasField m l.1 l.2 := fun l hl => (mem_leaves m l.1 l.2).1 hl
  have hmap := fun p c => fromColumnsAt_eq m h (leaves m) hf (leaves_nodup m h) 0 (fun _ _ => none) p c
  have hval : ∀ (k : Nat) (l : List Str × Str), (leaves m)[k]? = some l →
      ∃ v, vs[k]? = some v ∧ Spec.meaning v = e (Spec.aliasOf m.table l.1) l.2 := by
    intro k l hl
    have := congrArg (·[k]?) hv
    simp only [List.getElem?_map, hl, Option.map_some] at this
    cases hvk : vs[k]? with
    | none => rw [hvk] at this; cases this
    | some v =>
      rw [hvk] at this
      exact ⟨v, rfl, by simpa using this⟩
  obtain ⟨xs, g1, g2, g3⟩ := readFields_eq conv (fromColumns m (columnKeys cols)) (leaves m)
    (leaves_nodup m h) vs
    (fun l hl => by
      obtain ⟨k, hk⟩ := List.mem_iff_getElem?.1 hl
      obtain ⟨v, h1, h2⟩ := hval k l hk
      obtain ⟨x, hx⟩ := hconv l.1 l.2 v _ (hf l hl) (he l.1 l.2 (hf l hl)) h2
      exact ⟨0 + k, v, x, by rw [hcols]; exact (hmap l.1 l.2).2 k hk, by rw [Nat.zero_add]; exact h1, hx⟩)
    (fun l hl l' hl' hh => by
      obtain ⟨k, hk⟩ := List.mem_iff_getElem?.1 hl
      obtain ⟨k', hk'⟩ := List.mem_iff_getElem?.1 hl'
      rw [hcols] at hh
      have e1 := (hmap l.1 l.2).2 k hk
      have e2 := (hmap l'.1 l'.2).2 k' hk'
      have : some (0 + k) = some (0 + k') := by rw [← e1, ← e2]; exact hh
      have : k = k' := by simpa using this
      rw [this, hk'] at hk
      exact (Option.some.inj hk).symm)
  refine ⟨xs, g1, by rw [g2]; exact leaves_nodup m h, by rw [g2]; exact hf, fun p c hp => ?_⟩
  have hl : (p, c) ∈ leaves m := (mem_leaves m p c).2 hp
  rw [← g2] at hl
  obtain ⟨⟨l, x⟩, hx, hxe⟩ := List.mem_map.1 hl
  dsimp only at hxe
  subst hxe
  obtain ⟨k, v, h1, h2, h3⟩ := g3 (p, c) x hx
  obtain ⟨j, hj⟩ := List.mem_iff_getElem?.1 ((mem_leaves m p c).2 hp)
  rw [hcols] at h1
  have e1 : some (0 + j) = some k := by rw [← (hmap p c).2 j hj]; exact h1
  have : k = j := by simpa using e1.symm
  subst this
  obtain ⟨v', h4, h5⟩ := hval k (p, c) hj
  rw [h2] at h4
  cases h4
  exact ⟨_, v, x, he p c hp, h5, h3, hx⟩

theorem forall₂_perm {α β : Type} {R : α → β → Prop} {l l' : List α} (hp : l'.Perm l) {r : List β}
    (h : List.Forall₂ R l r) : ∃ r', r'.Perm r ∧ List.Forall₂ R l' r' := by
  induction hp generalizing r with
  | nil => exact ⟨r, .refl _, h⟩
  | cons x _ ih =>
    cases h with
    | cons hx h =>
      obtain ⟨r', h1, h2⟩ := ih h
      exact ⟨_ :: r', h1.cons _, .cons hx h2⟩
  | swap x y l =>
    cases h with
    | cons hx h =>
      cases h with
      | cons hy h => exact ⟨_, .swap .., .cons hy (.cons hx h)⟩
  | trans _ _ ih1 ih2 =>
    obtain ⟨r1, h1, h2⟩ := ih2 h
    obtain ⟨r2, h3, h4⟩ := ih1 h2
    exact ⟨r2, h3.trans h1, h4⟩

open Classical in
/-- **C65**: the generated query is sent, and whatever order the server returns the rows in, collecting
gives exactly one value per row of the model's table all of whose references lead somewhere, and its
fields are those stored in the row and the rows its references lead to. Afterwards the connection is at
the first byte after the result. -/
theorem C65_models {X : Type} (fp : FloatParse) (conv : List Str × Str → Value → Out ParseError X)
    (m : ModelDef) (h : Spec.ModelDef.Sound m) (db : Database) (hk : db.Keyed m) (c : Conn)
    (ts : List Spec.Tok) (q : Spec.Select) (ht : Spec.tokens (buildQuery m) = some ts)
    (hq : Spec.parseSelect ts = some q) (descs : List Spec.ColDesc) (cols : List Column)
    (rows : List (List Spec.Datum)) (ps : List Bytes) (status warnings : Nat) (r : List Rx)
    (hp : c.pendingResult = false) (hw : c.wfaults = [])
    (hd : DescsAs descs cols) (hl : descs.length < 2 ^ 56)
    (hdescs : descs.map (fun d => (d.table, d.orgName)) = q.items)
    (hperm : rows.Perm (db.select q)) (hrows : TextRows fp cols rows ps)
    (hconv : ∀ r ∈ db.rows m.table, ∀ p c v r', HasField m p c → db.follow m r p = some r' →
      Spec.meaning v = r' c → ∃ x, conv (p, c) v = .ok x)
    (hrx : c.rx = rxOf (Spec.framesAll (UInt8.ofNat (Spec.frameCount (0x03 :: utf8 (buildQuery m))))
      (Spec.resultSet descs ps status warnings)) ++ r) :
    ∃ c1 objs c2 ok recs,
      query (buildQuery m) c = (.ok { columns := cols, okPacket := none }, c1) ∧
      RSet.collect (textReader fp (buildModel conv m)) { columns := cols, okPacket := none } c1
        = (.ok ({ columns := cols, okPacket := some ok }, objs), c2) ∧
      recs.Perm ((db.rows m.table).filter fun r => db.Complete m r) ∧
      List.Forall₂ (IsObject conv db m) objs recs ∧
      c2 = { c with rx := r, tx := c.tx ++ Spec.frames 0 (0x03 :: utf8 (buildQuery m)),
                    seqId := c2.seqId, pendingResult := false } := by
  obtain ⟨ts', q', h1, h2, _, h4⟩ := C65_rows m h db hk
  rw [ht] at h1
  cases h1
  rw [hq] at h2
  cases h2
  obtain ⟨ts', h1, h2⟩ := query_select m h
  rw [ht] at h1
  cases h1
  rw [hq] at h2
  have hitems : q.items = (leaves m).map fun l => (Spec.aliasOf m.table l.1, l.2) := by
    rw [Option.some.inj h2]
  clear h2
  have hkeys : columnKeys cols = q.items := by
    rw [← hdescs]
    clear hrx hrows hl hdescs
    unfold DescsAs at hd
    induction hd with
    | nil => rfl
    | @cons d col ds cols hd _ ih =>
      obtain ⟨t, _, rfl⟩ := hd
      unfold columnKeys at ih ⊢
      rw [List.map_cons, List.map_cons, ih]
      rfl
  have h0 : descs ≠ [] := by
    rintro rfl
    rw [List.map_nil, hitems] at hdescs
    have hne : leaves m ≠ [] := by
      match m, h with
      | .mk t k plain structs refs, h =>
        rw [Spec.ModelDef.Sound] at h
        rw [leaves]
        intro hh
        rw [List.append_eq_nil_iff, List.map_eq_nil_iff] at hh
        exact h.2.2.2.1 hh.1
    exact hne (List.map_eq_nil_iff.1 hdescs.symm)
  have hcols : cols ≠ [] := by
    rintro rfl
    cases hd; exact h0 rfl
  obtain ⟨recs, g1, g2⟩ := forall₂_perm hperm h4
  have hmem : ∀ r ∈ recs, r ∈ db.rows m.table := fun r hr =>
    (List.mem_filter.1 (g1.subset hr)).1
  obtain ⟨objs, g3, g4⟩ : ∃ objs, RowsAs (textReader fp (buildModel conv m)) cols ps objs ∧
      List.Forall₂ (IsObject conv db m) objs recs := by
    clear hrx hperm h4 g1
    unfold TextRows at hrows
    induction hrows generalizing recs with
    | nil => cases g2; exact ⟨[], .nil, .nil⟩
    | @cons p ds ps rows hp' _ ih =>
      cases g2 with
      | @cons _ rec _ recs hrec hrecs =>
      obtain ⟨objs, i1, i2⟩ := ih recs hrecs fun r hr => hmem r (List.mem_cons_of_mem _ hr)
      obtain ⟨e, k1, k2⟩ := hrec
      obtain ⟨vs, k3, k4⟩ := C10_row_decodes fp cols ds p [] hp'
      rw [List.append_nil] at k3
      obtain ⟨obj, k5, k6⟩ := build_object conv m h db cols (by rw [hkeys, hitems]) rec e k1 vs
        (by rw [k4, k2, hitems]) (hconv rec (hmem rec (List.mem_cons_self ..)))
      exact ⟨obj :: objs, .cons ⟨isRow_text hp' (by simpa using hcols), vs, k3, k5⟩ i1, .cons k6 i2⟩
  unfold query
  rw [SM.bind_of_ok (executeCommand_clean .query (utf8 (buildQuery m)) c hp hw)]
  have e : Command.query.toByte = 0x03 := rfl
  rw [e]
  generalize hs : UInt8.ofNat (Spec.frameCount (0x03 :: utf8 (buildQuery m))) = s at hrx
  have e2 : ({ c with tx := c.tx ++ Spec.frames 0 (0x03 :: utf8 (buildQuery m)), seqId := s } : Conn)
      = Conn.feed { c with tx := c.tx ++ Spec.frames 0 (0x03 :: utf8 (buildQuery m)) } s
          (headPackets descs ++ (ps ++ Spec.terminator status warnings :: [])) r := by
    simp only [Conn.feed, hrx, Spec.resultSet, headPackets]
    simp
  rw [e2, read_head descs cols _ s _ r hd h0 hl]
  have k := collect_rows (textReader fp (buildModel conv m)) { columns := cols, okPacket := none }
    { c with tx := c.tx ++ Spec.frames 0 (0x03 :: utf8 (buildQuery m)), pendingResult := true }
    (Spec.seqAfter s (headPackets descs)) ps [] objs status warnings r rfl g3
  refine ⟨_, objs, _, _, recs, rfl, k, g1, g4, ?_⟩
  simp [Spec.framesAll, rxOf]

/-! ### a concrete database -/

namespace C65

def person : ModelDef := .mk "person".toList "id".toList ["id".toList, "name".toList] [] .nil

def pet : ModelDef := .mk "pet".toList "id".toList ["id".toList, "name".toList] []
  (.cons "owner".toList person .nil)

def rec (id : Int) (name : String) (owner : Spec.Datum) : Rec := fun c =>
  if c = "id".toList then .int 4 false id
  else if c = "name".toList then .str (utf8 name.toList)
  else if c = "owner".toList then owner else .null

/-- two persons, and three pets, of which one has no owner. -/
def db : Database :=
  { rows := fun t =>
      if t = "person".toList then [rec 1 "Ann" .null, rec 2 "Bob" .null]
      else if t = "pet".toList then
        [rec 7 "Rex" (.int 4 false 2), rec 8 "Tom" .null, rec 9 "Kit" (.int 4 false 1)]
      else []
    eq := fun a b => a ≠ .null && a == b }

theorem pet_sound : Spec.ModelDef.Sound pet :=
  ⟨by decide, by decide, by decide, by decide, by decide +kernel, by decide +kernel,
    by decide, by decide, by decide, by decide, trivial,
    ⟨by decide, by decide, by decide, by decide, by decide +kernel, by decide +kernel, trivial⟩, trivial⟩

theorem pet_keyed : db.Keyed pet := by
  have hr : db.rows person.table = [rec 1 "Ann" .null, rec 2 "Bob" .null] := by
    unfold db; dsimp only; rw [if_pos (by decide)]
  have h1 : rec 1 "Ann" .null person.primary = .int 4 false 1 := by decide
  have h2 : rec 2 "Bob" .null person.primary = .int 4 false 2 := by decide
  unfold pet
  rw [Database.Keyed, Database.KeyedRefs]
  refine ⟨?_, by unfold person; rw [Database.Keyed, Database.KeyedRefs]; trivial,
    by rw [Database.KeyedRefs]; trivial⟩
  rw [hr, List.pairwise_pair]
  intro x
  rw [h1, h2]
  unfold db
  simp only [Bool.and_eq_true, beq_iff_eq]
  rintro ⟨⟨_, a⟩, _, b⟩
  rw [a] at b
  cases b

/-- the rows of the answer: the pet without an owner is missing. -/
example : ((Spec.tokens (buildQuery pet)).bind Spec.parseSelect).map (db.select ·) =
    some [[.int 4 false 7, .str (utf8 "Rex".toList), .int 4 false 2, .str (utf8 "Bob".toList)],
          [.int 4 false 9, .str (utf8 "Kit".toList), .int 4 false 1, .str (utf8 "Ann".toList)]] := by
  decide +kernel

def desc (table name : String) (code : Nat) : Spec.ColDesc :=
  { db := "zoo".toList, table := table.toList, orgTable := [], name := name.toList,
    orgName := name.toList, charset := 63, length := 11, code := code, flags := 0, decimals := 0 }

def text (l : List String) : Bytes := l.flatMap fun s => Spec.lenencStr (utf8 s.toList)

/-- numbers to `i32`, the rest to strings. -/
def conv (l : List Str × Str) (v : Value) : Out ParseError (Int32 ⊕ Str) :=
  if l.2 = "id".toList then (tryInto .i32 v).map' Sum.inl else (tryInto .string v).map' Sum.inr

/-- the session, the server returning the rows in another order. -/
example :
    let descs := [desc "pet" "id" 3, desc "pet" "name" 253, desc "pet.owner" "id" 3,
      desc "pet.owner" "name" 253]
    let rx := Spec.framesAll 1 (Spec.resultSet descs
      [text ["9", "Kit", "1", "Ann"], text ["7", "Rex", "2", "Bob"]] 2 0)
    let fp : FloatParse := { f32 := fun _ => none, f64 := fun _ => none }
    let r := (do
      let rs ← query (buildQuery pet)
      let (_, l) ← rs.collect (textReader fp (buildModel conv pet))
      pure (l.map (·.map Prod.snd)) : M (List (List (Int32 ⊕ Str)))) (exConn rx)
    r.1 = .ok [[.inl 9, .inr "Kit".toList, .inl 1, .inr "Ann".toList],
               [.inl 7, .inr "Rex".toList, .inl 2, .inr "Bob".toList]] ∧ r.2.rx = [] := by
  decide +kernel

end C65

end Verif

import Verif.Spec.Links
import Verif.Proofs.StoreMany
import Verif.Props.C108_Moments

/-!
# C109 — references lead to rows, while programs insert and update

Programs that store and change models in one database at the same time: at any time every reference leads to a row.
-/

namespace Verif

open Spec (SqlServer Tables Row Field Rec Database StoreJob StoreStep StoreSystem Script Link setPlain setStructs ownKey
  insertScript refsScript jobsScript setNames refNames meaning linksOf linksRefs HasField HasRef refModel)
open Spec.SqlServer (meanings withRow given)

section
variable (S : SqlServer) (l : Link)

/-! ### statements -/

/-- what leads to a row still does. -/
def More (rows rows' : Tables) : Prop := ∀ d, l.Leads S rows d → l.Leads S rows' d

variable {S l}

theorem More.refl (rows : Tables) : More S l rows rows := fun _ h => h

theorem More.trans {a b c : Tables} (h1 : More S l a b) (h2 : More S l b c) : More S l a c := fun d h => h2 d (h1 d h)

variable (S l)

/-- a statement that keeps the link. -/
def StepKeeps (rows : Tables) : StoreStep → Prop
  | .row t fs => t = l.table → S.auto t ≠ some l.field ∧ ∃ v, given (meanings fs) l.field = some v ∧ l.Leads S rows v
  | .change t _ _ fs => (t = l.table → ∀ v, given (meanings fs) l.field = some v → l.Leads S rows v) ∧
      (t = l.target → l.key ∉ fs.map (·.1))

/-- a program all of whose statements do, whatever others do that keep what leads to a row; in the end it is `Q`. -/
def Keeping {α : Type} (Q : Tables → α → Prop) : Script α → Tables → Prop
  | .done a, rows => Q rows a
  | .stmt s k, rows => StepKeeps S l rows s ∧ ∀ rows', More S l rows rows' →
      Keeping Q (k (S.idOf rows' s)) (S.after rows' s)

variable {S l}

theorem StepKeeps.mono {rows rows' : Tables} (h : More S l rows rows') {s : StoreStep} (hs : StepKeeps S l rows s) :
    StepKeeps S l rows' s := by
  cases s with
  | row t fs =>
    intro ht
    obtain ⟨h1, v, h2, h3⟩ := hs ht
    exact ⟨h1, v, h2, h _ h3⟩
  | change t key id fs => exact ⟨fun ht v hv => h _ (hs.1 ht v hv), hs.2⟩

theorem given_none_of {fs : List (Str × Spec.Datum)} {c : Str} (h : c ∉ fs.map (·.1)) : given fs c = none := by
  unfold Spec.SqlServer.given
  rw [Option.map_eq_none_iff, List.find?_eq_none]
  intro x hx hc
  exact h (List.mem_map.2 ⟨x, hx, by simpa using hc⟩)

theorem meanings_names (fs : List Field) : (meanings fs).map (·.1) = fs.map (·.1) := by
  unfold Spec.SqlServer.meanings
  rw [List.map_map]
  rfl

theorem StepKeeps.more {rows : Tables} {s : StoreStep} (hs : StepKeeps S l rows s) : More S l rows (S.after rows s) := by
  rintro d ⟨r, hr, he⟩
  cases s with
  | row t fs =>
    refine ⟨r, ?_, he⟩
    show r ∈ withRow rows t _ l.target
    unfold Spec.SqlServer.withRow
    split
    next ht => rw [ht] at hr; exact List.mem_append_left _ hr
    · exact hr
  | change t key id fs =>
    show l.Leads S (S.updated rows t key (meaning id) (meanings fs)) d
    unfold Link.Leads Spec.SqlServer.updated
    split
    next ht =>
      refine ⟨_, List.mem_map.2 ⟨r, ht ▸ hr, rfl⟩, ?_⟩
      split
      · unfold Spec.SqlServer.assign
        rw [given_none_of (by rw [meanings_names]; exact hs.2 ht.symm)]
        exact he
      · exact he
    · exact ⟨r, hr, he⟩

theorem StepKeeps.keeps {rows : Tables} {s : StoreStep} (hs : StepKeeps S l rows s) (hk : l.Keeps S rows) :
    l.Keeps S (S.after rows s) := by
  have hmore := hs.more
  cases s with
  | row t fs =>
    intro r hr
    have hr' : r ∈ withRow rows t (S.record rows t (meanings fs)) l.table := hr
    unfold Spec.SqlServer.withRow at hr'
    split at hr'
    next ht =>
      rcases List.mem_append.1 hr' with h | h
      · exact hmore _ (hk r (ht ▸ h))
      · obtain ⟨h1, v, h2, h3⟩ := hs ht.symm
        rw [List.mem_singleton.1 h]
        refine hmore _ ?_
        unfold Spec.SqlServer.record
        rw [if_neg fun h => h1 h.1, h2]
        exact h3
    · exact hmore _ (hk r hr')
  | change t key id fs =>
    intro r hr
    have hr' : r ∈ S.updated rows t key (meaning id) (meanings fs) l.table := hr
    unfold Spec.SqlServer.updated at hr'
    split at hr'
    next ht =>
      obtain ⟨r0, h0, rfl⟩ := List.mem_map.1 hr'
      have h00 := hk r0 (ht ▸ h0)
      split
      · unfold Spec.SqlServer.assign
        cases hg : given (meanings fs) l.field with
        | none => exact hmore _ h00
        | some v => exact hmore _ (hs.1 ht.symm v hg)
      · exact hmore _ h00
    · exact hmore _ (hk r hr')

/-! ### programs -/

theorem Keeping.mono {α : Type} {Q : Tables → α → Prop} (hQ : ∀ {a b}, More S l a b → ∀ x, Q a x → Q b x)
    {p : Script α} {rows rows' : Tables} (h : More S l rows rows') (hp : Keeping S l Q p rows) :
    Keeping S l Q p rows' := by
  cases p with
  | done a => exact hQ h a hp
  | stmt s k => exact ⟨hp.1.mono h, fun rows2 h2 => hp.2 rows2 (h.trans h2)⟩

theorem Keeping.andThen {α β : Type} {Q : Tables → α → Prop} {R : Tables → β → Prop} {p : Script α} {f : α → Script β} :
    ∀ {rows : Tables}, Keeping S l Q p rows →
      (∀ rows' a, More S l rows rows' → Q rows' a → Keeping S l R (f a) rows') → Keeping S l R (p.andThen f) rows := by
  induction p with
  | done a => exact fun hp hf => hf _ a (.refl _) hp
  | stmt s k ih =>
    intro rows hp hf
    refine ⟨hp.1, fun rows' h' => ih _ (hp.2 rows' h') fun rows2 a h2 hq => hf rows2 a ?_ hq⟩
    exact (h'.trans ((hp.1.mono h').more)).trans h2

/-! ### models -/

theorem setPlain_names {plain : List (Str × Option (Out SerializeError Value))} {c : Str}
    (h : c ∉ plain.filterMap fun f => f.2.map fun _ => f.1) : c ∉ (setPlain plain).map (·.1) := by
  intro hc
  obtain ⟨⟨c', v⟩, hx, rfl⟩ := List.mem_map.1 hc
  obtain ⟨⟨n, o⟩, hf, he⟩ := List.mem_filterMap.1 hx
  refine h (List.mem_filterMap.2 ⟨(n, o), hf, ?_⟩)
  match o, he with
  | some (.ok v'), he => cases he; rfl

theorem setStructs_names {structs : List (Str × Option (List (Str × Out SerializeError Value)))} {c : Str}
    (h : c ∉ structs.flatMap fun s => (s.2.getD []).map fun x => s.1 ++ '_' :: x.1) :
    c ∉ (setStructs structs).map (·.1) := by
  intro hc
  obtain ⟨⟨c', v⟩, hx, rfl⟩ := List.mem_map.1 hc
  obtain ⟨s, hs, hx⟩ := List.mem_flatMap.1 hx
  obtain ⟨⟨n, o⟩, hf, he⟩ := List.mem_filterMap.1 hx
  refine h (List.mem_flatMap.2 ⟨s, hs, List.mem_map.2 ⟨(n, o), hf, ?_⟩⟩)
  match o, he with
  | .ok v', he => cases he; rfl

/-- the first of the plain fields with this name. -/
theorem given_plain (plain : List (Str × Option (Out SerializeError Value))) (rest : List Field) (c : Str) {v : Value}
    (h : (c, some (.ok v)) ∈ plain) :
    ∃ w, (c, some (.ok w)) ∈ plain ∧ given (meanings (setPlain plain ++ rest)) c = some (meaning w) ∧
      (plain.findSome? fun f => match f.2 with
        | some (.ok v) => if some f.1 = some c then some v else none
        | _ => none) = some w := by
  induction plain with
  | nil => cases h
  | cons x plain ih =>
    obtain ⟨n, o⟩ := x
    by_cases hx : ∃ w, o = some (.ok w) ∧ n = c
    · obtain ⟨w, rfl, rfl⟩ := hx
      refine ⟨w, List.mem_cons_self .., ?_, ?_⟩
      · simp [setPlain, meanings, given]
      · simp
    · have hm : (c, some (.ok v)) ∈ plain := by
        rcases List.mem_cons.1 h with h | h
        · cases h
          exact absurd ⟨v, rfl, rfl⟩ hx
        · exact h
      obtain ⟨w, h1, h2, h3⟩ := ih hm
      refine ⟨w, List.mem_cons_of_mem _ h1, ?_, ?_⟩
      · match o, hx with
        | some (.ok u), hx =>
          have hn : n ≠ c := fun e => hx ⟨u, rfl, e⟩
          have e : setPlain ((n, some (.ok u)) :: plain) = (n, u) :: setPlain plain := rfl
          rw [e]
          unfold Spec.SqlServer.given Spec.SqlServer.meanings at h2 ⊢
          rw [List.cons_append, List.map_cons, List.find?_cons_of_neg (by simpa using hn)]
          exact h2
        | some (.err _), _ => exact h2
        | some .panic, _ => exact h2
        | none, _ => exact h2
      · rw [List.findSome?_cons]
        match o, hx with
        | some (.ok u), hx =>
          have hn : n ≠ c := fun e => hx ⟨u, rfl, e⟩
          dsimp only
          rw [if_neg (by simpa using hn)]
          exact h3
        | some (.err _), _ => exact h3
        | some .panic, _ => exact h3
        | none, _ => exact h3

/-- what the keys of the references are good for. -/
structure RefsGood (S : SqlServer) (l : Link) (old : Tables) (refs : ActiveRefs) (rows : Tables) (fks : List Field) :
    Prop where
  names : fks.map (·.1) = refNames refs
  one : l.Given S old refs → ∃ v, given (meanings fks) l.field = some v ∧ l.Leads S rows v
  all : l.Kept S old refs → ∀ v, given (meanings fks) l.field = some v → l.Leads S rows v

theorem RefsGood.mono {old : Tables} {refs : ActiveRefs} {a b : Tables} (h : More S l a b) (fks : List Field)
    (hg : RefsGood S l old refs a fks) : RefsGood S l old refs b fks :=
  ⟨hg.names, fun h1 => (hg.one h1).imp fun _ h2 => ⟨h2.1, h _ h2.2⟩, fun h1 v h2 => h _ (hg.all h1 v h2)⟩

/-- the last reference of the name, and those before it. -/
theorem RefsGood.cons {old : Tables} {refs refs' : ActiveRefs} {f : Str} {k : Value} {rows : Tables} {fks : List Field}
    (hn : refNames refs' = f :: refNames refs)
    (h1 : l.Given S old refs' → if f = l.field then l.Leads S rows (meaning k) else l.Given S old refs)
    (h2 : l.Kept S old refs' → if f = l.field then l.Leads S rows (meaning k) else l.Kept S old refs)
    (hg : RefsGood S l old refs rows fks) : RefsGood S l old refs' rows ((f, k) :: fks) := by
  have hgiven : given (meanings ((f, k) :: fks)) l.field =
      if f = l.field then some (meaning k) else given (meanings fks) l.field := by
    unfold Spec.SqlServer.given Spec.SqlServer.meanings
    rw [List.map_cons, List.find?_cons]
    by_cases hf : f = l.field <;> simp [hf]
  refine ⟨by rw [List.map_cons, hg.names, hn], fun hg' => ?_, fun hg' v hv => ?_⟩
  · have := h1 hg'
    rw [hgiven]
    split at this
    next hf => rw [if_pos hf]; exact ⟨_, rfl, this⟩
    next hf => rw [if_neg hf]; exact hg.one this
  · have := h2 hg'
    rw [hgiven] at hv
    split at this
    next hf => rw [if_pos hf] at hv; cases hv; exact this
    next hf => rw [if_neg hf] at hv; exact hg.all this v hv

/-- the columns of a row: those of the model itself come first. -/
theorem given_own (plain : List (Str × Option (Out SerializeError Value)))
    (structs : List (Str × Option (List (Str × Out SerializeError Value)))) (fks : List Field)
    (ha : l.Apart plain structs) :
    given (meanings (setPlain plain ++ setStructs structs ++ fks)) l.field = given (meanings fks) l.field := by
  unfold Spec.SqlServer.given Spec.SqlServer.meanings
  rw [List.map_append, List.find?_append]
  have : ((setPlain plain ++ setStructs structs).map fun f => (f.1, meaning f.2)).find? (·.1 = l.field) = none := by
    rw [List.find?_eq_none]
    intro x hx hc
    obtain ⟨⟨n, v⟩, hy, rfl⟩ := List.mem_map.1 hx
    have hn : n = l.field := by simpa using hc
    subst hn
    exact ha v hy
  rw [this, Option.none_or]

/-- the key of a row that has been stored leads to it. -/
theorem known_leads {t : Str} {p : Option Str} {plain : List (Str × Option (Out SerializeError Value))}
    {structs : List (Str × Option (List (Str × Out SerializeError Value)))} {refs : ActiveRefs}
    (hk : l.Known S (.mk t p plain structs refs)) {fks : List Field} (hn : fks.map (·.1) = refNames refs)
    (rows : Tables) :
    l.Leads S (S.after rows (.row t (setPlain plain ++ setStructs structs ++ fks))) (meaning (ownKey
      (.mk t p plain structs refs) (S.idOf rows (.row t (setPlain plain ++ setStructs structs ++ fks))))) := by
  obtain ⟨rfl, rfl, hk⟩ := hk
  refine ⟨S.record rows l.target (meanings (setPlain plain ++ setStructs structs ++ fks)), ?_, ?_⟩
  · show _ ∈ withRow rows l.target _ l.target
    unfold Spec.SqlServer.withRow
    rw [if_pos rfl]
    exact List.mem_append_right _ (List.mem_singleton.2 rfl)
  rcases hk with ⟨h1, h2, h3⟩ | ⟨⟨v, hv⟩, h2, h3⟩
  · rw [setNames, List.mem_append, List.mem_append, not_or, not_or] at h2
    have hnone : given (meanings (setPlain plain ++ setStructs structs ++ fks)) l.key = none := by
      apply given_none_of
      rw [meanings_names, List.map_append, List.map_append, List.mem_append, List.mem_append, not_or, not_or, hn]
      exact ⟨⟨setPlain_names h2.1.1, setStructs_names h2.1.2⟩, h2.2⟩
    have hgen : S.generates l.target (meanings (setPlain plain ++ setStructs structs ++ fks)) = true := by
      unfold Spec.SqlServer.generates
      rw [h1]
      dsimp only
      rw [hnone]
    have hown : ∀ id, ownKey (.mk l.target (some l.key) plain structs refs) id = .ulong id := by
      intro id
      rw [ownKey]
      have : (plain.findSome? fun f => match f.2 with
          | some (.ok v) => if some f.1 = some l.key then some v else none
          | _ => none) = none := by
        rw [List.findSome?_eq_none_iff]
        rintro ⟨n, o⟩ hf
        match o, hf with
        | some (.ok u), hf =>
          dsimp only
          rw [if_neg]
          intro e
          cases e
          exact h2.1.1 (List.mem_filterMap.2 ⟨_, hf, rfl⟩)
        | some (.err _), _ => rfl
        | some .panic, _ => rfl
        | none, _ => rfl
      exact congrArg (Option.getD · (Value.ulong id)) this
    rw [hown]
    show S.eq (meaning (.ulong (S.insertId rows l.target _))) _ = true
    unfold Spec.SqlServer.record Spec.SqlServer.insertId
    rw [if_pos hgen, if_pos ⟨h1, hgen⟩]
    exact h3 _
  · obtain ⟨w, w1, w2, w3⟩ := given_plain plain (setStructs structs ++ fks) l.key hv
    rw [← List.append_assoc] at w2
    have hown : ∀ id, ownKey (.mk l.target (some l.key) plain structs refs) id = w := by
      intro id
      rw [ownKey]
      exact congrArg (Option.getD · (Value.ulong id)) w3
    rw [hown]
    have hgen : S.generates l.target (meanings (setPlain plain ++ setStructs structs ++ fks)) = false := by
      unfold Spec.SqlServer.generates
      cases ha : S.auto l.target with
      | none => rfl
      | some c =>
        dsimp only
        obtain ⟨⟨u, hu⟩, h4⟩ := h3 c ha
        obtain ⟨u', u1, u2, _⟩ := given_plain plain (setStructs structs ++ fks) c hu
        rw [← List.append_assoc] at u2
        rw [u2]
        exact h4 u' u1
    unfold Spec.SqlServer.record
    rw [if_neg (by rw [hgen]; simp), w2]
    exact h2 w w1

mutual
theorem insert_keeping {old : Tables} (m : ActiveModel) (hf : l.Fits S old m) :
    ∀ {rows : Tables}, More S l old rows →
      Keeping S l (fun rows id => l.Known S m → l.Leads S rows (meaning (ownKey m id))) (insertScript m) rows := by
  match m with
  | .mk t p plain structs refs =>
    intro rows hm
    rw [Link.Fits] at hf
    rw [insertScript]
    refine (refs_keeping refs hf.2 hm).andThen fun rows1 fks _ hg => ⟨fun ht => ?_, fun rows2 h2 hk => ?_⟩
    · obtain ⟨h1, h2, h3⟩ := hf.1 ht
      rw [given_own _ _ _ h2]
      exact ⟨h1, hg.one h3⟩
    · exact known_leads hk hg.names rows2

theorem refs_keeping {old : Tables} (refs : ActiveRefs) (hf : l.FitsRefs S old refs) :
    ∀ {rows : Tables}, More S l old rows → Keeping S l (RefsGood S l old refs) (refsScript refs) rows := by
  match refs with
  | .nil =>
    intro rows _
    rw [refsScript]
    refine ⟨rfl, fun h => ?_, fun _ v hv => ?_⟩
    · rw [Link.Given] at h; exact h.elim
    · cases hv
  | .unset f r =>
    intro rows hm
    rw [Link.FitsRefs] at hf
    rw [refsScript]
    have := refs_keeping r hf hm
    have e : RefsGood S l old (.unset f r) = RefsGood S l old r := by
      funext rows fks
      refine propext ⟨fun h => ?_, fun h => ?_⟩
      · exact ⟨h.names, fun h1 => h.one (by rw [Link.Given]; exact h1), fun h1 => h.all (by rw [Link.Kept]; exact h1)⟩
      · exact ⟨h.names, fun h1 => h.one (by rw [Link.Given] at h1; exact h1),
          fun h1 => h.all (by rw [Link.Kept] at h1; exact h1)⟩
    rw [e]
    exact this
  | .set f v r =>
    intro rows hm
    rw [Link.FitsRefs] at hf
    rw [refsScript]
    refine (refs_keeping r hf hm).andThen fun rows1 fks h1 hg => ?_
    refine RefsGood.cons rfl (fun h => ?_) (fun h => ?_) hg
    · rw [Link.Given] at h
      split at h
      next hf => rw [if_pos hf]; exact h1 _ (hm _ h)
      next hf => rw [if_neg hf]; exact h
    · rw [Link.Kept] at h
      split at h
      next hf => rw [if_pos hf]; exact h1 _ (hm _ h)
      next hf => rw [if_neg hf]; exact h
  | .insert f m r =>
    intro rows hm
    rw [Link.FitsRefs] at hf
    rw [refsScript]
    refine (insert_keeping m hf.1 hm).andThen fun rows1 id h1 hk => ?_
    refine (refs_keeping r hf.2 (hm.trans h1)).andThen fun rows2 fks h2 hg => ?_
    refine RefsGood.cons rfl (fun h => ?_) (fun h => ?_) hg
    · rw [Link.Given] at h
      split at h
      next hf => rw [if_pos hf]; exact h2 _ (hk h)
      next hf => rw [if_neg hf]; exact h
    · rw [Link.Kept] at h
      split at h
      next hf => rw [if_pos hf]; exact h2 _ (hk h)
      next hf => rw [if_neg hf]; exact h
end

theorem job_keeping {old : Tables} (j : StoreJob) (hf : l.FitsJob S old j) {rows : Tables} (hm : More S l old rows) :
    Keeping S l (fun _ _ => True) j.script rows := by
  match j with
  | .insert m =>
    rw [Spec.StoreJob.script]
    have h := insert_keeping m hf hm
    clear hf hm
    generalize insertScript m = p at h
    induction p generalizing rows with
    | done a => trivial
    | stmt s k ih => exact ⟨h.1, fun rows' h' => ih _ (h.2 rows' h')⟩
  | .update key id (.mk t p plain structs refs) =>
    rw [Spec.StoreJob.script]
    obtain ⟨h1, h2, h3⟩ := hf
    refine (refs_keeping refs h3 hm).andThen fun rows1 fks _ hg => ?_
    split
    · trivial
    · refine ⟨⟨fun ht v hv => ?_, fun ht hc => ?_⟩, fun _ _ => trivial⟩
      · obtain ⟨h4, h5⟩ := h1 ht
        rw [given_own _ _ _ h4] at hv
        exact hg.all h5 v hv
      · have := h2 ht
        rw [setNames, List.mem_append, List.mem_append, not_or, not_or] at this
        rw [List.map_append, List.map_append, List.mem_append, List.mem_append, hg.names] at hc
        rcases hc with (hc | hc) | hc
        · exact setPlain_names this.1.1 hc
        · exact setStructs_names this.1.2 hc
        · exact this.2 hc

theorem jobs_keeping {old : Tables} (js : List StoreJob) (hf : ∀ j ∈ js, l.FitsJob S old j) :
    ∀ {rows : Tables}, More S l old rows → Keeping S l (fun _ _ => True) (jobsScript js) rows := by
  induction js with
  | nil => exact fun _ => trivial
  | cons j js ih =>
    intro rows hm
    rw [jobsScript]
    refine (job_keeping j (hf j (List.mem_cons_self ..)) hm).andThen fun rows1 id h1 _ => ?_
    refine (ih (fun j hj => hf j (List.mem_cons_of_mem _ hj)) (hm.trans h1)).andThen fun rows2 ids _ _ => ?_
    trivial

/-! ### all programs -/

/-- **C109**: programs insert models and update rows of one database at the same time; every model for the table comes
with the reference (a key that leads to a row from the beginning, or a model to be inserted), updates leave it or give
it, and nobody changes keys of the target.  Then at any time, whatever the programs are doing and wherever they have
stopped or failed, every reference leads to a row, if it did in the beginning; and what led to a row still does. -/
theorem C109_links (jobs : Nat → List StoreJob) (rows : Tables) (hj : ∀ i, ∀ j ∈ jobs i, l.FitsJob S rows j)
    (h0 : l.Keeps S rows) (sched : List Nat) (x : StoreSystem) (hx : x = (StoreSystem.started rows jobs).go S sched) :
    l.Keeps S x.rows ∧ ∀ d, l.Leads S rows d → l.Leads S x.rows d := by
  have key : ∀ (sched : List Nat) (y : StoreSystem),
      (l.Keeps S y.rows ∧ More S l rows y.rows ∧ ∀ i p, y.left i = .ok p → Keeping S l (fun _ _ => True) p y.rows) →
      let z := y.go S sched
      l.Keeps S z.rows ∧ More S l rows z.rows ∧ ∀ i p, z.left i = .ok p → Keeping S l (fun _ _ => True) p z.rows := by
    intro sched
    induction sched with
    | nil => exact fun y hy => hy
    | cons n is ih =>
      rintro y ⟨h1, h2, h3⟩
      refine ih (y.turn S n) ?_
      unfold Spec.StoreSystem.turn
      split
      next s k hl =>
        have hk := h3 n _ hl
        split
        · refine ⟨h1, h2, fun i p hp => ?_⟩
          dsimp only at hp
          split at hp
          · cases hp
          · exact h3 i p hp
        · refine ⟨hk.1.keeps h1, h2.trans hk.1.more, fun i p hp => ?_⟩
          dsimp only at hp ⊢
          split at hp
          · cases hp
            exact hk.2 _ (.refl _)
          · exact (h3 i p hp).mono (fun _ _ h => h) hk.1.more
      · exact ⟨h1, h2, h3⟩
  subst hx
  obtain ⟨h1, h2, _⟩ := key sched (StoreSystem.started rows jobs) ⟨h0, .refl _, fun i p hp => by
    cases hp
    exact jobs_keeping (jobs i) (hj i) (.refl _)⟩
  exact ⟨h1, h2⟩

/-! ### models -/

theorem mem_linksRefs {t f : Str} {refs : RefDefs} {m' : ModelDef} (h : refModel f refs = some m') :
    ⟨t, f, m'.table, m'.primary⟩ ∈ linksRefs t refs ∧ ∀ l ∈ linksOf m', l ∈ linksRefs t refs := by
  match refs with
  | .nil => cases h
  | .cons g m r =>
    rw [refModel] at h
    rw [linksRefs]
    split at h
    next e =>
      cases h
      subst e
      exact ⟨List.mem_cons_self .., fun l hl => List.mem_cons_of_mem _ (List.mem_append_left _ hl)⟩
    · obtain ⟨h1, h2⟩ := mem_linksRefs (t := t) h
      exact ⟨List.mem_cons_of_mem _ (List.mem_append_right _ h1),
        fun l hl => List.mem_cons_of_mem _ (List.mem_append_right _ (h2 l hl))⟩

end

end Verif

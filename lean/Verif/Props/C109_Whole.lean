import Verif.Props.C109_Links
import Verif.Props.C80_UpdateQuery

/-!
# C109: queries while programs insert and update

From references that lead to rows to models that can be read as a whole.
-/

namespace Verif

open Spec (SqlServer Tables Row Field Rec Database StoreJob StoreStep StoreSystem Script Link setPlain setStructs ownKey
  setNames refNames meaning linksOf linksRefs HasField HasRef refModel shape shapeRefs KeysFit KeysFitRefs
  parts partsRefs Writable WritableRefs)

/-- if all references lead to rows, those of a row lead along every path. -/
theorem complete_of_links (S : SqlServer) (rows : Tables) : ∀ (path : List Str) (m : ModelDef) (c : Str),
    Spec.ModelDef.Sound m → HasField m path c → (∀ l ∈ linksOf m, l.Keeps S rows) → ∀ r ∈ rows m.table,
    ∃ r', (S.database rows).follow m r path = some r' := by
  intro path
  induction path with
  | nil => exact fun m c _ _ _ r _ => ⟨r, rfl⟩
  | cons f path ih =>
    intro m c hs hf hk r hr
    match m with
    | .mk t p plain structs refs =>
      rw [Spec.ModelDef.Sound] at hs
      have hs' := hs.2.2.2.2.2.2
      cases hf with
      | sub h =>
        obtain ⟨g, path', m', e, h1, h2⟩ := hasRef_head refs hs' h
        cases e
        rw [linksOf] at hk
        obtain ⟨k1, k2⟩ := mem_linksRefs (t := t) h1
        obtain ⟨r1, hr1, he⟩ := hk _ k1 r hr
        have hfind : ((rows m'.table).find? fun r' => S.eq (r f) (r' m'.primary)).isSome = true := by
          rw [List.find?_isSome]
          exact ⟨r1, hr1, he⟩
        obtain ⟨r2, h3⟩ := Option.isSome_iff_exists.1 hfind
        have hsm : Spec.ModelDef.Sound m' := by
          clear hk k1 k2 hr he hfind h3 h h2 hs
          induction refs using RefDefs.rec (motive_1 := fun _ => True) with
          | mk => trivial
          | nil => cases h1
          | cons g m r _ ih =>
            rw [Spec.RefDefs.Sound] at hs'
            rw [refModel] at h1
            split at h1
            · cases h1; exact hs'.2.2.2.2.2.1
            · exact ih hs'.2.2.2.2.2.2 h1
        obtain ⟨r', h4⟩ := ih m' c hsm h2 (fun l hl => hk l (k2 l hl)) r2 (List.mem_of_find?_eq_some h3)
        refine ⟨r', ?_⟩
        show (match refModel f refs with
          | none => none
          | some m' => match (rows m'.table).find? fun r' => S.eq (r f) (r' m'.primary) with
            | none => none
            | some r' => (S.database rows).follow m' r' path) = some r'
        rw [h1]
        dsimp only
        rw [h3]
        exact h4

/-- **C109**, models: if the programs keep to this for the references of a model and of the models it refers to, then at
any time every row of the model's table can be read as a whole. -/
theorem C109_whole (S : SqlServer) (jobs : Nat → List StoreJob) (rows : Tables) (m : ModelDef)
    (hs : Spec.ModelDef.Sound m) (hj : ∀ l ∈ linksOf m, ∀ i, ∀ j ∈ jobs i, l.FitsJob S rows j)
    (h0 : ∀ l ∈ linksOf m, l.Keeps S rows) (sched : List Nat) (x : StoreSystem)
    (hx : x = (StoreSystem.started rows jobs).go S sched) :
    ∀ r ∈ x.rows m.table, (S.database x.rows).Complete m r := fun r hr p c hf =>
  complete_of_links S x.rows p m c hs hf (fun l hl => (C109_links jobs rows (hj l hl) (h0 l hl) sched x hx).1) r hr

/-- **C109**, queries: a query of the type at any time, answered from the tables of that time in any order, yields an
object for each row of the model's table, with its references; no row is missing. -/
theorem C109_query {X : Type} (S : SqlServer) (jobs : Nat → List StoreJob) (rows0 : Tables) (m : ModelDef)
    (hs : Spec.ModelDef.Sound m) (hj : ∀ l ∈ linksOf m, ∀ i, ∀ j ∈ jobs i, l.FitsJob S rows0 j)
    (h0 : ∀ l ∈ linksOf m, l.Keeps S rows0) (sched : List Nat) (x : StoreSystem)
    (hx : x = (StoreSystem.started rows0 jobs).go S sched) (hkd : (S.database x.rows).Keyed m)
    (fp : FloatParse) (conv : List Str × Str → Value → Out ParseError X) (c : Conn)
    (ts : List Spec.Tok) (q : Spec.Select) (descs : List Spec.ColDesc) (cols : List Column)
    (rows : List (List Spec.Datum)) (ps : List Bytes) (status warnings : Nat) (r : List Rx)
    (ht : Spec.tokens (buildQuery m) = some ts) (hq : Spec.parseSelect ts = some q)
    (hdc : DescsAs descs cols) (hl : descs.length < 2 ^ 56)
    (hds : descs.map (fun d => (d.table, d.orgName)) = q.items)
    (hperm : rows.Perm ((S.database x.rows).select q)) (htr : TextRows fp cols rows ps)
    (hconv : ∀ r ∈ x.rows m.table, ∀ p c v r', HasField m p c →
      (S.database x.rows).follow m r p = some r' → Spec.meaning v = r' c → ∃ y, conv (p, c) v = .ok y)
    (hc : AtRest S c (rxOf (Spec.framesAll (UInt8.ofNat (Spec.frameCount (0x03 :: utf8 (buildQuery m))))
      (Spec.resultSet descs ps status warnings)) ++ r)) :
    ∃ c1 c2 ok objs recs, query (buildQuery m) c = (.ok { columns := cols, okPacket := none }, c1) ∧
      RSet.collect (textReader fp (buildModel conv m)) { columns := cols, okPacket := none } c1
        = (.ok ({ columns := cols, okPacket := some ok }, objs), c2) ∧
      recs.Perm (x.rows m.table) ∧ List.Forall₂ (IsObject conv (S.database x.rows) m) objs recs := by
  obtain ⟨c1, c2, ok, objs, recs, g1, g2, g3, g4, _⟩ := kept_found S m hs x.rows hkd [] (fun z hz => by cases hz)
    (List.nil_subperm (l := x.rows m.table)) .nil fp conv c ts q descs cols rows ps status warnings r ht hq hdc hl hds
    hperm htr hconv hc
  have hw := C109_whole S jobs rows0 m hs hj h0 sched x hx
  rw [List.filter_eq_self.2 fun r hr => by simpa using hw r hr] at g3
  exact ⟨c1, c2, ok, objs, recs, g1, g2, g3, g4⟩

/-! ### models that are given as a whole -/

theorem refNames_into {f : Str} : ∀ {refs : RefVals} {m' : ModelDef}, refModel f (shapeRefs refs) = some m' →
    f ∈ refNames (refsIntoActive refs)
  | .nil, m', h => by cases h
  | .cons g mv r, m', h => by
    rw [shapeRefs, refModel] at h
    rw [refsIntoActive, refNames]
    split at h
    next e => rw [e]; exact List.mem_cons_self ..
    · exact List.mem_cons_of_mem _ (refNames_into h)

/-- a model of the target with a key that the client knows. -/
theorem known_model (S : SqlServer) (l : Link) (mv : ModelVal) (hk : KeysFit S mv) (hw : Writable mv.intoActive)
    (h1 : (shape mv).table = l.target) (h2 : (shape mv).primary = l.key) : l.Known S mv.intoActive := by
  match mv with
  | .mk t p ai plain structs refs =>
    rw [KeysFit] at hk
    have h1' : t = l.target := h1
    have h2' : p = l.key := h2
    subst h2'
    rw [ModelVal.intoActive] at hw ⊢
    refine ⟨h1', rfl, ?_⟩
    cases ai with
    | true =>
      left
      have hk1 := hk.1
      rw [if_pos rfl, ModelVal.intoActive] at hk1
      exact hk1
    | false =>
      right
      have hk1 := hk.1
      rw [if_neg (by simp)] at hk1
      have hm : ∀ c v, (c, some (.ok v)) ∈ (plain.map fun f => (f.1, if (false = true) ∧ f.1 = l.key then none else some f.2)) ↔
          (c, .ok v) ∈ plain := by
        intro c v
        rw [List.mem_map]
        constructor
        · rintro ⟨⟨n, o⟩, hf, he⟩
          simp only [Bool.false_eq_true, false_and, if_false] at he
          cases he
          exact hf
        · exact fun h => ⟨_, h, by simp⟩
      obtain ⟨⟨v, hv⟩, k2, k3⟩ := hk1
      refine ⟨⟨v, (hm _ _).2 hv⟩, fun v h => k2 v ((hm _ _).1 h), fun c hc => ?_⟩
      obtain ⟨w, w1, w2⟩ := k3 c hc
      refine ⟨⟨w, (hm _ _).2 w1⟩, fun w' hw' => ?_⟩
      rw [Writable] at hw
      have hnd := hw.2.2.1
      rw [setNames, List.append_assoc] at hnd
      have hnd1 := (List.nodup_append.1 hnd).1
      have hnd2 : (plain.map (·.1)).Nodup := by
        refine Eq.mp (congrArg List.Nodup ?_) hnd1
        clear hnd hnd1 hw hw' k3 w1 w2 hm k2 hv hk h1 h2
        induction plain with
        | nil => rfl
        | cons x plain ih =>
          rw [List.map_cons, List.map_cons, ← ih]
          simp
      have h4 := (hm _ _).1 hw'
      have : w' = w := by
        obtain ⟨i, hi, e1⟩ := List.mem_iff_getElem.1 h4
        obtain ⟨j, hj, e2⟩ := List.mem_iff_getElem.1 w1
        have hij : i = j := by
          refine (List.Nodup.getElem_inj_iff hnd2 (hi := by simpa using hi) (hj := by simpa using hj)).1 ?_
          rw [List.getElem_map, List.getElem_map, e1, e2]
        subst hij
        rw [e1] at e2
        cases e2
        rfl
      rw [this]
      exact w2

mutual
/-- a model whose keys fit, given with all it refers to: every part of it for the table has the reference. -/
theorem fits_model (S : SqlServer) (l : Link) (old : Tables) (mv : ModelVal) (hk : KeysFit S mv)
    (hw : Writable mv.intoActive)
    (hl : ∀ p ∈ parts mv, (shape p).table = l.table → ∃ m', refModel l.field (shape p).refs = some m' ∧
      m'.table = l.target ∧ m'.primary = l.key) : l.Fits S old mv.intoActive := by
  match mv with
  | .mk t p ai plain structs refs =>
    have hw0 := hw
    rw [KeysFit] at hk
    rw [ModelVal.intoActive] at hw ⊢
    rw [Writable] at hw
    refine ⟨fun ht => ?_, fits_refs S l old refs hk.2 hw.2.2.2.2.2.2 fun q hq =>
      hl q (by rw [parts]; exact List.mem_cons_of_mem _ hq)⟩
    obtain ⟨m', h1, h2, h3⟩ := hl (.mk t p ai plain structs refs) (by rw [parts]; exact List.mem_cons_self ..) ht
    have h1' : refModel l.field (shapeRefs refs) = some m' := h1
    have hin := refNames_into h1'
    have hnd := hw.2.2.1
    rw [setNames] at hnd
    have hdis := (List.nodup_append.1 hnd).2.2
    refine ⟨fun ha => ?_, fun v hv => ?_, given_refs S l old refs hk.2 hw.2.2.2.2.2.2 h1' h2 h3⟩
    · cases ai with
      | true =>
        have hk1 := hk.1
        rw [if_pos rfl] at hk1
        rw [hk1.1] at ha
        cases ha
        refine hk1.2.1 ?_
        rw [ModelVal.intoActive, setNames]
        exact List.mem_append_right _ hin
      | false =>
        have hk1 := hk.1
        rw [if_neg (by simp)] at hk1
        obtain ⟨w, w1, _⟩ := hk1.2.2 _ ha
        refine hdis l.field ?_ l.field hin rfl
        exact List.mem_append_left _ (List.mem_filterMap.2 ⟨(l.field, some (.ok w)),
          List.mem_map.2 ⟨_, w1, by simp⟩, rfl⟩)
    · rcases List.mem_append.1 hv with hv | hv
      · by_contra
        exact setPlain_names (fun h => hdis l.field (List.mem_append_left _ h) l.field hin rfl)
          (List.mem_map.2 ⟨_, hv, rfl⟩)
      · by_contra
        exact setStructs_names (fun h => hdis l.field (List.mem_append_right _ h) l.field hin rfl)
          (List.mem_map.2 ⟨_, hv, rfl⟩)

theorem fits_refs (S : SqlServer) (l : Link) (old : Tables) (refs : RefVals) (hk : KeysFitRefs S refs)
    (hw : WritableRefs (refsIntoActive refs))
    (hl : ∀ p ∈ partsRefs refs, (shape p).table = l.table → ∃ m', refModel l.field (shape p).refs = some m' ∧
      m'.table = l.target ∧ m'.primary = l.key) : l.FitsRefs S old (refsIntoActive refs) := by
  match refs with
  | .nil => rw [refsIntoActive]; trivial
  | .cons f m r =>
    rw [KeysFitRefs] at hk
    rw [refsIntoActive] at hw ⊢
    rw [WritableRefs] at hw
    rw [partsRefs] at hl
    exact ⟨fits_model S l old m hk.1 hw.1 fun q hq => hl q (List.mem_append_left _ hq),
      fits_refs S l old r hk.2 hw.2 fun q hq => hl q (List.mem_append_right _ hq)⟩

theorem given_refs (S : SqlServer) (l : Link) (old : Tables) (refs : RefVals) (hk : KeysFitRefs S refs)
    (hw : WritableRefs (refsIntoActive refs)) {m' : ModelDef} (h1 : refModel l.field (shapeRefs refs) = some m')
    (h2 : m'.table = l.target) (h3 : m'.primary = l.key) : l.Given S old (refsIntoActive refs) := by
  match refs with
  | .nil => cases h1
  | .cons f m r =>
    rw [KeysFitRefs] at hk
    rw [refsIntoActive] at hw ⊢
    rw [WritableRefs] at hw
    rw [shapeRefs, refModel] at h1
    rw [Link.Given]
    split at h1
    next e =>
      cases h1
      rw [if_pos e]
      exact known_model S l m hk.1 hw.1 h2 h3
    next e =>
      rw [if_neg e]
      exact given_refs S l old r hk.2 hw.2 h1 h2 h3
end

/-- **C109**, whole models: inserting a model with all it refers to keeps a link, if every part of it that belongs to
the table has the reference. -/
theorem C109_insert (S : SqlServer) (l : Link) (old : Tables) (mv : ModelVal) (hk : KeysFit S mv)
    (hw : Writable mv.intoActive)
    (hl : ∀ p ∈ parts mv, (shape p).table = l.table → ∃ m', refModel l.field (shape p).refs = some m' ∧
      m'.table = l.target ∧ m'.primary = l.key) : l.FitsJob S old (.insert mv.intoActive) :=
  fits_model S l old mv hk hw hl

namespace C109

def owner : Link := ⟨"pet".toList, "owner".toList, "person".toList, "id".toList⟩

example : linksOf (shape C67.pet) = [owner] := by
  simp [C67.pet, C67.person, shape, shapeRefs, linksOf, linksRefs, ModelDef.table, ModelDef.primary, owner]

/-- the pet 1 of the person 5. -/
def old : Tables := fun t =>
  if t = "pet".toList then
    [fun c => if c = "id".toList then .int 4 true 1 else if c = "owner".toList then .int 4 true 5 else .null]
  else if t = "person".toList then [fun c => if c = "id".toList then .int 4 true 5 else .null]
  else []

/-- the first program inserts a pet with its owner; the second gives the pet 1 to a new person, and then a name to the
person 5; the third inserts a pet of the person 5. -/
def jobs : Nat → List StoreJob
  | 0 => [.insert C67.pet.intoActive]
  | 1 => [.update "id".toList (.uint 1) (.mk "pet".toList (some "id".toList) [("name".toList, none)] []
        (.insert "owner".toList (.mk "person".toList (some "id".toList)
          [("id".toList, none), ("name".toList, some (.ok (.bytes [66])))] [] .nil) .nil)),
      .update "id".toList (.uint 5) (.mk "person".toList (some "id".toList)
        [("name".toList, some (.ok (.bytes [67])))] [] .nil)]
  | 2 => [.insert (.mk "pet".toList (some "id".toList) [] [] (.set "owner".toList (.uint 5) .nil))]
  | _ => []

theorem key_eq (t : Str) (id : UInt64) :
    C66.server.eq (Spec.meaning (.ulong id)) (C66.server.keyDatum t id) = true := by
  simp [C66.server, Spec.meaning]

/-- all of them keep to it. -/
theorem jobs_fit : ∀ i, ∀ j ∈ jobs i, owner.FitsJob C66.server old j := by
  intro i j hj
  match i with
  | 0 =>
    rw [jobs, List.mem_singleton] at hj
    subst hj
    refine C109_insert C66.server owner old C67.pet C67.pet_fits ?_ ?_
    · unfold C67.pet C67.person
      simp [ModelVal.intoActive, refsIntoActive, Writable, WritableRefs, setNames, refNames, Spec.SendableOut, Spec.Sendable]
    · intro p hp ht
      have hq : parts C67.pet = [C67.pet, C67.person] := by simp [C67.pet, C67.person, parts, partsRefs]
      rw [hq] at hp
      rcases List.mem_cons.1 hp with rfl | hp
      · exact ⟨shape C67.person, by simp [C67.pet, shape, shapeRefs, ModelDef.refs, refModel, owner],
          rfl, rfl⟩
      · rw [List.mem_singleton.1 hp] at ht
        exact absurd ht (by unfold C67.person; rw [shape]; decide)
  | 1 =>
    rw [jobs] at hj
    rcases List.mem_cons.1 hj with rfl | hj
    · refine ⟨fun _ => ⟨fun v => by simp [setPlain, setStructs], ?_⟩, fun h => absurd h (by decide),
        ⟨fun h => absurd h (by decide), trivial⟩, trivial⟩
      rw [Link.Kept, if_pos (show "owner".toList = owner.field from rfl)]
      exact ⟨rfl, rfl, .inl ⟨rfl, by simp [setNames, refNames, owner], key_eq _⟩⟩
    · rw [List.mem_singleton.1 hj]
      exact ⟨fun h => absurd h (by decide), fun _ => by simp [setNames, refNames, owner], trivial⟩
  | 2 =>
    rw [jobs, List.mem_singleton] at hj
    subst hj
    refine ⟨fun _ => ⟨by decide, fun v => by simp [setPlain, setStructs], ?_⟩, trivial⟩
    rw [Link.Given, if_pos (show "owner".toList = owner.field from rfl)]
    exact ⟨_, List.mem_singleton.2 rfl, by decide +kernel⟩
  | n + 3 => cases hj

theorem old_keeps : owner.Keeps C66.server old := by
  intro r hr
  rw [List.mem_singleton.1 hr]
  exact ⟨_, List.mem_singleton.2 rfl, by decide +kernel⟩

/-- so in every order, at every time. -/
example (sched : List Nat) : owner.Keeps C66.server ((StoreSystem.started old jobs).go C66.server sched).rows :=
  (C109_links jobs old jobs_fit old_keeps sched _ rfl).1

/-- what a query of pets is told after `s`. -/
def toldOf (js : Nat → List StoreJob) (s : List Nat) : Option (List (List Spec.Datum)) :=
  ((Spec.tokens (buildQuery (shape C67.pet))).bind Spec.parseSelect).map
    ((C66.server.database ((StoreSystem.started old js).go C66.server s).rows).select ·)

/-- the pet 1 with its first owner, with the new one, and a second pet. -/
example : toldOf jobs [0, 1] = some [[.int 4 true 1, .null, .int 4 true 5, .null]] ∧
    toldOf jobs [0, 1, 1] = some [[.int 4 true 1, .null, .int 4 true 63, .str [66]]] ∧
    toldOf jobs [0, 1, 2, 1, 1, 1, 0] = some [[.int 4 true 1, .null, .int 4 true 63, .str [66]],
      [.int 4 true 32, .null, .int 4 true 5, .str [67]]] := by
  refine ⟨?_, ?_, ?_⟩ <;> decide +kernel

/-- a program that changes the key of the person. -/
def careless : Nat → List StoreJob
  | 0 => [.update "id".toList (.uint 5) (.mk "person".toList (some "id".toList)
      [("id".toList, some (.ok (.uint 6)))] [] .nil)]
  | _ => []

/-- the pet is not found any more. -/
example : toldOf careless [] = some [[.int 4 true 1, .null, .int 4 true 5, .null]] ∧
    toldOf careless [0] = some [] ∧
    (((StoreSystem.started old careless).go C66.server [0]).rows "pet".toList).length = 1 := by
  refine ⟨?_, ?_, ?_⟩ <;> decide +kernel

end C109

end Verif

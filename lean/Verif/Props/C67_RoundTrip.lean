import Verif.Proofs.RoundTrip
import Verif.Props.C65_ModelQuery

/-!
# C67 — a model that is inserted is found again by a query

Together with C66 (what the server stores when a model is inserted) and C65 (what a query returns).
-/

namespace Verif

open Spec (SqlServer SqlState Tables Row Rec Database Writable WritableRefs Holds HoldsRef HoldsRow KeysFit shape
  shapeRefs HasField HasRef)
open Spec.SqlServer (Stores)

theorem sendable_into {p : Str} {ai : Bool} {plain : List (Str × Out SerializeError Value)}
    (h : ∀ f ∈ plain.map (fun f => (f.1, if ai ∧ f.1 = p then none else some f.2)), ∀ x, f.2 = some x →
      Spec.SendableOut x) {f : Str × Out SerializeError Value} (hf : f ∈ plain) (hn : ¬(ai = true ∧ f.1 = p)) :
    Spec.SendableOut f.2 := by
  refine h (f.1, if ai ∧ f.1 = p then none else some f.2) (List.mem_map.2 ⟨f, hf, rfl⟩) f.2 ?_
  dsimp only
  rw [if_neg hn]

mutual
/-- every field of the type has a value. -/
theorem field_holds (mv : ModelVal) (hw : Writable mv.intoActive) (path : List Str) (c : Str)
    (h : HasField (shape mv) path c) : ∃ o, Holds mv path c o := by
  match mv with
  | .mk t p ai plain structs refs =>
    rw [ModelVal.intoActive, Writable] at hw
    obtain ⟨_, _, _, _, w5, w6, w7⟩ := hw
    rw [shape] at h
    cases h with
    | own hc =>
      rcases List.mem_append.1 hc with hc | hc
      · have hc' : c ∈ plain.map (·.1) := hc
        obtain ⟨f, hf, rfl⟩ := List.mem_map.1 hc'
        by_cases hn : ai = true ∧ f.1 = p
        · obtain ⟨rfl, rfl⟩ := hn
          exact ⟨none, .key hc'⟩
        · obtain ⟨v, hv, _⟩ := sendable_into w5 hf hn
          exact ⟨some v, .plain (by rw [← hv]; exact hf) hn⟩
      · obtain ⟨s, hs, hx⟩ := List.mem_flatMap.1 hc
        obtain ⟨s', hs', rfl⟩ := List.mem_map.1 hs
        dsimp only at hx
        rw [List.map_map] at hx
        obtain ⟨x, hx', rfl⟩ := List.mem_map.1 hx
        obtain ⟨v, hv, _⟩ := w6 (s'.1, some s'.2) (List.mem_map.2 ⟨s', hs', rfl⟩) s'.2 rfl x hx'
        exact ⟨some v, .member hs' (by rw [← hv]; exact hx')⟩
    | sub hr =>
      obtain ⟨o, ho⟩ := ref_holds refs w7 path c hr
      exact ⟨o, .sub ho⟩

theorem ref_holds (refs : RefVals) (hw : WritableRefs (refsIntoActive refs)) (path : List Str) (c : Str)
    (h : HasRef (shapeRefs refs) path c) : ∃ o, HoldsRef refs path c o := by
  match refs with
  | .nil =>
    rw [shapeRefs] at h
    cases h
  | .cons f m r =>
    rw [refsIntoActive, WritableRefs] at hw
    rw [shapeRefs] at h
    cases h with
    | here h =>
      obtain ⟨o, ho⟩ := field_holds m hw.1 _ c h
      exact ⟨o, .here ho⟩
    | there h =>
      obtain ⟨o, ho⟩ := ref_holds r hw.2 path c h
      exact ⟨o, .there ho⟩
end

mutual
theorem holds_field (mv : ModelVal) (path : List Str) (c : Str) (o : Option Value) (h : Holds mv path c o) :
    HasField (shape mv) path c := by
  match mv with
  | .mk t p ai plain structs refs =>
    rw [shape]
    cases h with
    | plain hc _ => exact .own (List.mem_append_left _ (List.mem_map.2 ⟨_, hc, rfl⟩))
    | key hc => exact .own (List.mem_append_left _ hc)
    | member hs hx =>
      refine .own (List.mem_append_right _ (List.mem_flatMap.2 ⟨_, List.mem_map.2 ⟨_, hs, rfl⟩, ?_⟩))
      exact List.mem_map.2 ⟨_, List.mem_map.2 ⟨_, hx, rfl⟩, rfl⟩
    | sub hr => exact .sub (holds_ref refs path c o hr)

theorem holds_ref (refs : RefVals) (path : List Str) (c : Str) (o : Option Value)
    (h : HoldsRef refs path c o) : HasRef (shapeRefs refs) path c := by
  match refs with
  | .nil => cases h
  | .cons f m r =>
    rw [shapeRefs]
    cases h with
    | here h => exact .here (holds_field m _ c o h)
    | there h => exact .there (holds_ref r path c o h)
end

/-- The tables after a model has been inserted: its row is the last of its table, all its references
lead somewhere, and along each path the row holds the value of the model in each column, or the
generated key. -/
theorem C67_stored (S : SqlServer) (mv : ModelVal) (hk : KeysFit S mv) (hw : Writable mv.intoActive)
    (hs : Spec.ModelDef.Sound (shape mv)) (log : List Row) (id : UInt64) (rows rows' : Tables)
    (hi : Spec.Inserted mv.intoActive log id) (hst : Stores S rows log rows')
    (hkd : (S.database rows').Keyed (shape mv)) :
    ∃ r, (rows' (shape mv).table).getLast? = some r ∧ (S.database rows').Complete (shape mv) r ∧
      ∀ path c o, Holds mv path c o →
        ∃ r', (S.database rows').follow (shape mv) r path = some r' ∧ HoldsRow S r' c o := by
  obtain ⟨r, pre, h1, _, h3⟩ := inserted_stored S mv hk hw hs hi hst
  have h4 := h3 rows' (Grows.refl _) hkd
  refine ⟨r, by rw [h1, List.getLast?_concat], fun path c hf => ?_, h4⟩
  obtain ⟨o, ho⟩ := field_holds mv hw path c hf
  obtain ⟨r', h5, _⟩ := h4 path c o ho
  exact ⟨r', h5⟩

/-- The object has all values of the model, as far as they are not generated keys. -/
def Returns {X : Type} (conv : List Str × Str → Value → Out ParseError X) (mv : ModelVal)
    (obj : List ((List Str × Str) × X)) : Prop :=
  (∀ l ∈ obj.map Prod.fst, HasField (shape mv) l.1 l.2) ∧
  (∀ path c, HasField (shape mv) path c → ∃ x, ((path, c), x) ∈ obj) ∧
  ∀ path c v, Holds mv path c (some v) →
    ∃ v' x, Spec.meaning v' = Spec.meaning v ∧ conv (path, c) v' = .ok x ∧ ((path, c), x) ∈ obj

/-- **C67**: there is a conversation in which a model is inserted, and if the server stored it, then a
query of the same type of model, sent on the same connection after it and answered by the server from
its tables, returns the model among its rows: each value read back means what was written, the
references included. -/
theorem C67_round_trip {X : Type} (S : SqlServer) (hS : Fair S) (st : SqlState) (mv : ModelVal)
    (hk : KeysFit S mv) (hw : Writable mv.intoActive) (hd : Spec.allDistinct mv.intoActive)
    (hs : Spec.ModelDef.Sound (shape mv)) :
    ∃ cmds sent st', S.talk st cmds = some (st', sent, Spec.commands cmds) ∧
      ((∃ log t fs e, Spec.Begun mv.intoActive log (.ok (t, fs)) ∧ Stores S st.rows log st'.rows ∧
          S.refuses st'.rows (Spec.SqlServer.withRow st'.rows t
            (S.record st'.rows t (Spec.SqlServer.meanings fs))) = some e ∧
          ∀ (c : Conn) (r : List Rx), AtRest S c (rxOf sent ++ r) → ∃ q,
            mv.intoActive.insert c = (.err (refusal S e), { c with
              rx := r, tx := c.tx ++ Spec.commands cmds, seqId := q })) ∨
       (∃ log id, Spec.Inserted mv.intoActive log id ∧ Stores S st.rows log st'.rows ∧
          ∀ (fp : FloatParse) (conv : List Str × Str → Value → Out ParseError X) (c : Conn)
            (ts : List Spec.Tok) (q : Spec.Select) (descs : List Spec.ColDesc) (cols : List Column)
            (rows : List (List Spec.Datum)) (ps : List Bytes) (status warnings : Nat) (r : List Rx),
            (S.database st'.rows).Keyed (shape mv) →
            Spec.tokens (buildQuery (shape mv)) = some ts → Spec.parseSelect ts = some q →
            DescsAs descs cols → descs.length < 2 ^ 56 →
            descs.map (fun d => (d.table, d.orgName)) = q.items →
            rows.Perm ((S.database st'.rows).select q) → TextRows fp cols rows ps →
            (∀ r ∈ st'.rows (shape mv).table, ∀ p c v r', HasField (shape mv) p c →
              (S.database st'.rows).follow (shape mv) r p = some r' → Spec.meaning v = r' c →
              ∃ x, conv (p, c) v = .ok x) →
            AtRest S c (rxOf sent ++ (rxOf (Spec.framesAll
              (UInt8.ofNat (Spec.frameCount (0x03 :: utf8 (buildQuery (shape mv)))))
              (Spec.resultSet descs ps status warnings)) ++ r)) →
            ∃ c1 c2 c3 ok objs, mv.intoActive.insert c = (.ok id, c1) ∧
              query (buildQuery (shape mv)) c1 = (.ok { columns := cols, okPacket := none }, c2) ∧
              RSet.collect (textReader fp (buildModel conv (shape mv))) { columns := cols, okPacket := none } c2
                = (.ok ({ columns := cols, okPacket := some ok }, objs), c3) ∧
              c3.rx = r ∧ c3.pendingResult = false ∧
              c3.tx = c.tx ++ Spec.commands (cmds ++ [0x03 :: utf8 (buildQuery (shape mv))]) ∧
              ∃ obj ∈ objs, Returns conv mv obj)) := by
  obtain ⟨cmds, sent, st', h1, h2⟩ := C66_insert S hS st mv.intoActive hw hd
  refine ⟨cmds, sent, st', h1, ?_⟩
  rcases h2 with ⟨log, id, h2, h3, h4⟩ | h2
  swap
  · exact .inl h2
  refine .inr ⟨log, id, h2, h3, ?_⟩
  intro fp conv c ts q descs cols rows ps status warnings r hkd ht hq hdc hl hds hperm htr hconv hc
  obtain ⟨q1, h5⟩ := h4 c _ hc
  obtain ⟨c2, objs, c3, ok, recs, g1, g2, g3, g4, g5⟩ := C65_models fp conv (shape mv) hs
    (S.database st'.rows) hkd { c with
      rx := rxOf (Spec.framesAll (UInt8.ofNat (Spec.frameCount (0x03 :: utf8 (buildQuery (shape mv)))))
              (Spec.resultSet descs ps status warnings)) ++ r
      tx := c.tx ++ Spec.commands cmds
      seqId := q1 } ts q ht hq descs cols rows ps status warnings r hc.pending hc.faults hdc hl hds hperm htr
      hconv rfl
  obtain ⟨rec, k1, k2, k3⟩ := C67_stored S mv hk hw hs log id st.rows st'.rows h2 h3 hkd
  refine ⟨_, c2, c3, ok, objs, h5, g1, g2, by rw [g5], by rw [g5], ?_, ?_⟩
  · rw [g5, commands_append', ← List.append_assoc]
    simp [Spec.commands]
  have hmem : rec ∈ recs := by
    refine g3.symm.subset (List.mem_filter.2 ⟨?_, by simpa using k2⟩)
    exact List.mem_of_getLast? k1
  obtain ⟨obj, ho, hobj⟩ : ∃ obj ∈ objs, IsObject conv (S.database st'.rows) (shape mv) obj rec := by
    clear g3 g2
    induction g4 with
    | nil => cases hmem
    | @cons obj r objs recs ha _ ih =>
      rcases List.mem_cons.1 hmem with rfl | hmem
      · exact ⟨obj, List.mem_cons_self .., ha⟩
      · obtain ⟨o, ho, h⟩ := ih hmem
        exact ⟨o, List.mem_cons_of_mem _ ho, h⟩
  refine ⟨obj, ho, hobj.2.1, fun path c hf => ?_, fun path c v hv => ?_⟩
  · obtain ⟨_, _, x, _, _, _, hx⟩ := hobj.2.2 path c hf
    exact ⟨x, hx⟩
  · obtain ⟨r1, j1, j2⟩ := k3 path c (some v) hv
    have hf := holds_field mv path c (some v) hv
    obtain ⟨r2, v', x, i1, i2, i3, i4⟩ := hobj.2.2 path c hf
    rw [i1] at j1
    cases j1
    exact ⟨v', x, by rw [i2]; exact j2, i3, i4⟩

/-! ### a concrete model -/

namespace C67

def person : ModelVal := .mk "person".toList "id".toList true
  [("id".toList, .ok (.uint 0)), ("name".toList, .ok (.bytes [65]))] [] .nil

def pet : ModelVal := .mk "pet".toList "id".toList true
  [("id".toList, .ok (.uint 0)), ("name".toList, .ok (.bytes [82]))] [] (.cons "owner".toList person .nil)

example : pet.intoActive = C66.pet := by
  unfold pet person C66.pet C66.person
  simp [ModelVal.intoActive, refsIntoActive]

theorem pet_fits : KeysFit C66.server pet := by
  have hid : ∀ (t : Str) (id : UInt64),
      C66.server.eq (Spec.meaning (.ulong id)) (C66.server.keyDatum t id) = true := by
    intro t id
    simp [C66.server, Spec.meaning]
  unfold pet person
  rw [KeysFit, Spec.KeysFitRefs, KeysFit]
  exact ⟨by rw [if_pos rfl]; exact ⟨rfl, by decide +kernel, hid _⟩,
    ⟨by rw [if_pos rfl]; exact ⟨rfl, by decide +kernel, hid _⟩, trivial⟩, trivial⟩

/-- the values of the pet: its name, the name of its owner, and two generated keys. -/
example : Holds pet ["owner".toList] "name".toList (some (.bytes [65])) ∧
    Holds pet [] "name".toList (some (.bytes [82])) ∧ Holds pet [] "id".toList none :=
  ⟨.sub (.here (.plain (by simp) (by decide))), .plain (by simp) (by decide), .key (by simp)⟩

/-- what a query finds after the conversation of `C66`: the pet and its owner. -/
example : ((C66.server.talk C66.empty C66.cmds).bind fun x =>
      ((Spec.tokens (buildQuery (shape pet))).bind Spec.parseSelect).map
        ((C66.server.database x.1.rows).select ·)) =
    some [[.int 4 true 31, .str [82], .int 4 true 61, .str [65]]] := by
  decide +kernel

end C67

end Verif

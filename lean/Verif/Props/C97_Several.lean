import Verif.Spec.Several
import Verif.Props.C67_RoundTrip
import Mathlib.Data.List.Perm.Basic
import Mathlib.Data.List.Forall2

/-!
# C97 — several models inserted one after the other are all found, each once

C67 is about one model; here any number of them goes into the same table, as in examples/hello_world.rs.
-/

namespace Verif

open Spec (SqlServer SqlState Tables Row Rec Database Insertable InsertedAll shape HasField)
open Spec.SqlServer (Stores withRow meanings)

/-- examples/hello_world.rs 39-57: models are inserted, the first error ends it. -/
def insertAll : List ModelVal → M (List UInt64)
  | [] => pure []
  | mv :: mvs => do
    let id ← mv.intoActive.insert
    let ids ← insertAll mvs
    pure (id :: ids)

/-- the row of a model is stored last. -/
theorem inserted_last {S : SqlServer} {mv : ModelVal} {log : List Row} {id : UInt64} {rows rows' : Tables}
    (hi : Spec.Inserted mv.intoActive log id) (hst : Stores S rows log rows') :
    ∃ rows1 r, Grows rows rows1 ∧ rows' = withRow rows1 (shape mv).table r ∧
      ((shape mv).refs = .nil → rows1 = rows) ∧
      ∀ k, S.auto (shape mv).table = some k → k ∉ Spec.setNames mv.intoActive →
        r k = S.keyDatum (shape mv).table id := by
  match mv with
  | .mk t p ai plain structs refs =>
    rw [ModelVal.intoActive] at hi
    generalize hlog : log = log0 at hi
    cases hi with
    | @mk _ _ _ _ _ fs gs log1 fks _ h1 h2 h3 =>
    subst hlog
    obtain ⟨rows1, s1, s2⟩ := stores_split hst
    cases s2 with
    | cons _ e2 e3 =>
    cases e3
    refine ⟨rows1, _, grows_stores s1, by rw [shape]; rfl, fun hn => ?_, fun k hk hn => ?_⟩
    · rw [shape_refs] at hn
      cases refs with
      | nil =>
        rw [refsIntoActive] at h3
        cases h3
        cases s1
        rfl
      | cons f m' r' => rw [Spec.shapeRefs] at hn; cases hn
    · rw [show (shape (.mk t p ai plain structs refs)).table = t by rw [shape]; rfl] at hk ⊢
      have hnames : (fs ++ gs ++ fks).map (·.1) =
          Spec.setNames (ModelVal.mk t p ai plain structs refs).intoActive := by
        rw [ModelVal.intoActive, Spec.setNames, List.map_append, List.map_append, plainSet_names h1,
          structSet_names h2, referred_names _ h3]
      rw [← hnames] at hn
      have hgen : S.generates t (meanings (fs ++ gs ++ fks)) = true := by
        unfold Spec.SqlServer.generates
        rw [hk]
        dsimp only
        rw [given_none hn]
      dsimp only at e2 ⊢
      rw [e2]
      unfold Spec.SqlServer.record Spec.SqlServer.insertId
      rw [if_pos ⟨hk, hgen⟩, if_pos hgen]

/-- **C97**, inserting: either all models are stored, one after the other, and the caller gets the ids in their order;
or the server refuses a row of one of them: the models before it are stored, what comes after it is not sent, and the
caller gets the server's error. -/
theorem C97_inserted (S : SqlServer) (hS : Fair S) (m : ModelDef) (mvs : List ModelVal)
    (hm : ∀ mv ∈ mvs, Insertable S m mv) (st : SqlState) :
    ∃ cmds sent st', S.talk st cmds = some (st', sent, Spec.commands cmds) ∧
      ((∃ log ids, InsertedAll mvs log ids ∧ Stores S st.rows log st'.rows ∧
          ∀ (c : Conn) (r : List Rx), AtRest S c (rxOf sent ++ r) → ∃ q, insertAll mvs c = (.ok ids, { c with
            rx := r, tx := c.tx ++ Spec.commands cmds, seqId := q })) ∨
       (∃ done mv rest log1 ids log t fs e, mvs = done ++ mv :: rest ∧ InsertedAll done log1 ids ∧
          Spec.Begun mv.intoActive log (.ok (t, fs)) ∧ Stores S st.rows (log1 ++ log) st'.rows ∧
          S.refuses st'.rows (withRow st'.rows t (S.record st'.rows t (meanings fs))) = some e ∧
          ∀ (c : Conn) (r : List Rx), AtRest S c (rxOf sent ++ r) → ∃ q,
            insertAll mvs c = (.err (refusal S e), { c with
              rx := r, tx := c.tx ++ Spec.commands cmds, seqId := q }))) := by
  induction mvs generalizing st with
  | nil =>
    refine ⟨[], [], st, rfl, .inl ⟨[], [], .nil, .nil, fun c r hc => ⟨c.seqId, ?_⟩⟩⟩
    have := hc.rx
    simp only [rxOf, List.map_nil, List.nil_append] at this
    subst this
    simp [insertAll, Spec.commands]
  | cons mv mvs ih =>
    have hmv := hm mv (List.mem_cons_self ..)
    obtain ⟨cmds1, sent1, st1, h1, h2⟩ := C66_insert S hS st mv.intoActive hmv.writable hmv.distinct
    rcases h2 with ⟨log1, id, a1, a2, a3⟩ | ⟨log1, t, fs, e, a1, a2, a3, a4⟩
    · obtain ⟨cmds2, sent2, st2, k1, k2⟩ := ih (fun x hx => hm x (List.mem_cons_of_mem _ hx)) st1
      refine ⟨cmds1 ++ cmds2, sent1 ++ sent2, st2, ?_, ?_⟩
      · rw [talk_append, h1, Option.bind_some, k1, Option.map_some, commands_append']
      have first : ∀ (c : Conn) (r : List Rx), AtRest S c (rxOf (sent1 ++ sent2) ++ r) →
          ∃ q, mv.intoActive.insert c = (.ok id, { c with
            rx := rxOf sent2 ++ r, tx := c.tx ++ Spec.commands cmds1, seqId := q }) := fun c r hc =>
        a3 c (rxOf sent2 ++ r)
          ⟨hc.pending, hc.faults, hc.track, hc.p41, by rw [hc.rx, rxOf_append, List.append_assoc]⟩
      rcases k2 with ⟨log2, ids, b1, b2, b3⟩ | ⟨done, mv', rest, log2, ids, log3, t, fs, e, b0, b1, b2, b3, b4, b5⟩
      · refine .inl ⟨log1 ++ log2, id :: ids, .cons a1 b1, stores_append a2 b2, fun c r hc => ?_⟩
        obtain ⟨q, g⟩ := first c r hc
        obtain ⟨q2, g2⟩ := b3 _ r (hc.next (rxOf sent2 ++ r) (c.tx ++ Spec.commands cmds1) q)
        refine ⟨q2, ?_⟩
        rw [insertAll, SM.bind_of_ok g, SM.bind_of_ok g2, commands_append', ← List.append_assoc]
        rfl
      · refine .inr ⟨mv :: done, mv', rest, log1 ++ log2, id :: ids, log3, t, fs, e, by rw [b0]; rfl, .cons a1 b1, b2,
          by rw [List.append_assoc]; exact stores_append a2 b3, b4, fun c r hc => ?_⟩
        obtain ⟨q, g⟩ := first c r hc
        obtain ⟨q2, g2⟩ := b5 _ r (hc.next (rxOf sent2 ++ r) (c.tx ++ Spec.commands cmds1) q)
        refine ⟨q2, ?_⟩
        rw [insertAll, SM.bind_of_ok g, SM.bind_of_err g2, commands_append', ← List.append_assoc]
    · refine ⟨cmds1, sent1, st1, h1, .inr ⟨[], mv, mvs, [], [], log1, t, fs, e, rfl, .nil, a1, a2, a3, fun c r hc => ?_⟩⟩
      obtain ⟨q, g⟩ := a4 c r hc
      exact ⟨q, by rw [insertAll, SM.bind_of_err g]⟩

/-- what is stored of a model whose id is `id` in the row `r`. -/
structure Kept (S : SqlServer) (rows : Tables) (m : ModelDef) (x : ModelVal × UInt64) (r : Rec) : Prop where
  complete : (S.database rows).Complete m r
  stored : Stored S rows x.1 r
  key : ∀ k, Spec.KeyOf x.1.intoActive x.2 k → S.eq (Spec.meaning k) (r m.primary) = true
  generated : ∀ k, S.auto m.table = some k → k ∉ Spec.setNames x.1.intoActive → r k = S.keyDatum m.table x.2

/-- The tables afterwards: rows are only added; among those added to the table of the models is one for each model, in
their order, which holds its values and its key, and from which the references lead to the values of the models
referred to.  Models without references add nothing else. -/
theorem C97_stored (S : SqlServer) (m : ModelDef) (hs : Spec.ModelDef.Sound m) (mvs : List ModelVal)
    (hm : ∀ mv ∈ mvs, Insertable S m mv) {log : List Row} {ids : List UInt64} {rows rows' : Tables}
    (hi : InsertedAll mvs log ids) (hst : Stores S rows log rows') :
    ∃ added news, rows' m.table = rows m.table ++ added ∧ news.Sublist added ∧
      (∀ rows'', Grows rows' rows'' → (S.database rows'').Keyed m →
        List.Forall₂ (Kept S rows'' m) (mvs.zip ids) news) ∧
      (m.refs = .nil → added = news ∧ ∀ t, t ≠ m.table → rows' t = rows t) := by
  induction hi generalizing rows with
  | nil =>
    cases hst
    exact ⟨[], [], (List.append_nil _).symm, .slnil, fun _ _ _ => .nil, fun _ => ⟨rfl, fun _ _ => rfl⟩⟩
  | @cons mv mvs log log' id ids h1 h2 ih =>
    obtain ⟨rows1, s1, s2⟩ := stores_split hst
    obtain ⟨added, news, e1, e2, e3, e4⟩ := ih (fun x hx => hm x (List.mem_cons_of_mem _ hx)) s2
    have hmv := hm mv (List.mem_cons_self ..)
    obtain ⟨r, pre, g1, g2, g3⟩ := inserted_stored S mv hmv.keys hmv.writable (by rw [hmv.shape]; exact hs) h1 s1
    rw [hmv.shape] at g1 g2 g3
    obtain ⟨rows0, r0, l1, l2, l3, l4⟩ := inserted_last h1 s1
    rw [hmv.shape] at l2 l3 l4
    have hr : pre = rows0 m.table ∧ r = r0 := by
      have := congrFun l2 m.table
      rw [g1] at this
      unfold withRow at this
      rw [if_pos rfl] at this
      have h := List.append_inj' this rfl
      exact ⟨h.1, by simpa using h.2⟩
    obtain ⟨rfl, rfl⟩ := hr
    obtain ⟨mid', hmid⟩ := l1 m.table
    refine ⟨mid' ++ r :: added, r :: news, ?_, ?_, ?_, ?_⟩
    · rw [e1, g1, ← hmid]; simp
    · exact (e2.cons_cons r).trans (List.sublist_append_right mid' _)
    · intro rows'' hg hkd
      refine .cons ⟨?_, g3 rows'' ((grows_stores s2).trans hg) hkd, g2, l4⟩ (e3 rows'' hg hkd)
      intro p c hf
      rw [← hmv.shape] at hf
      obtain ⟨o, ho⟩ := field_holds mv hmv.writable p c hf
      obtain ⟨r', h5, _⟩ := g3 rows'' ((grows_stores s2).trans hg) hkd p c o ho
      exact ⟨r', by rw [hmv.shape] at h5; exact h5⟩
    · intro hn
      obtain ⟨rfl, k⟩ := e4 hn
      have := l3 hn
      subst this
      have hm0 : mid' = [] := by simpa using hmid
      subst hm0
      refine ⟨rfl, fun t ht => ?_⟩
      rw [k t ht, l2]
      unfold withRow
      rw [if_neg ht]

/-! ### querying them -/

theorem forall₂_sublist {α β : Type} {R : α → β → Prop} {as : List α} {bs bs' : List β} (h : List.Forall₂ R as bs)
    (hs : bs'.Sublist bs) : ∃ as', as'.Sublist as ∧ List.Forall₂ R as' bs' := by
  induction hs generalizing as with
  | slnil => exact ⟨[], List.nil_sublist _, .nil⟩
  | cons b _ ih =>
    cases h with
    | cons _ h =>
      obtain ⟨as', h1, h2⟩ := ih h
      exact ⟨as', h1.cons _, h2⟩
  | cons_cons b _ ih =>
    cases h with
    | cons h0 h =>
      obtain ⟨as', h1, h2⟩ := ih h
      exact ⟨_ :: as', h1.cons_cons _, .cons h0 h2⟩

theorem forall₂_follow {α β : Type} {R : α → β → Prop} {as : List α} {bs bs' : List β} (h : List.Forall₂ R as bs)
    (hp : bs'.Perm bs) : ∃ as', as'.Perm as ∧ List.Forall₂ R as' bs' := by
  obtain ⟨as', h1, h2⟩ := List.perm_comp_forall₂ hp h.flip
  exact ⟨as', h2, h1.flip⟩

theorem forall₂_subperm {α β : Type} {R : α → β → Prop} {as : List α} {bs bs' : List β} (h : List.Forall₂ R as bs)
    (hp : bs'.Subperm bs) : ∃ as', as'.Subperm as ∧ List.Forall₂ R as' bs' := by
  obtain ⟨l, h1, h2⟩ := hp
  obtain ⟨as1, k1, k2⟩ := forall₂_sublist h h2
  obtain ⟨as2, j1, j2⟩ := forall₂_follow k2 h1.symm
  exact ⟨as2, ⟨as1, j1.symm, k1⟩, j2⟩

theorem insertedAll_length {mvs : List ModelVal} {log : List Row} {ids : List UInt64} (h : InsertedAll mvs log ids) :
    ids.length = mvs.length := by
  induction h with
  | nil => rfl
  | cons _ _ ih => simp [ih]

/-- The object is the model that was inserted: every field once, with its value, and as key what was reported for it (or given with
it, if the key is not generated). -/
structure IsModel {X : Type} (S : SqlServer) (conv : List Str × Str → Value → Out ParseError X) (m : ModelDef)
    (x : ModelVal × UInt64) (obj : List ((List Str × Str) × X)) : Prop where
  once : (obj.map Prod.fst).Nodup
  returns : Returns conv x.1 obj
  key : ∀ k, Spec.KeyOf x.1.intoActive x.2 k → HasField m [] m.primary →
    ∃ v y, S.eq (Spec.meaning k) (Spec.meaning v) = true ∧ conv ([], m.primary) v = .ok y ∧
      (([], m.primary), y) ∈ obj

theorem isModel_of {X : Type} {S : SqlServer} {conv : List Str × Str → Value → Out ParseError X} {m : ModelDef}
    {x : ModelVal × UInt64} (hx : shape x.1 = m) {rows : Tables} {r : Rec} {obj : List ((List Str × Str) × X)}
    (hk : Kept S rows m x r) (ho : IsObject conv (S.database rows) m obj r) : IsModel S conv m x obj := by
  subst hx
  refine ⟨ho.1, ⟨ho.2.1, fun path c hf => ?_, fun path c v hv => ?_⟩, fun k hkey hf => ?_⟩
  · obtain ⟨_, _, y, _, _, _, hy⟩ := ho.2.2 path c hf
    exact ⟨y, hy⟩
  · obtain ⟨r1, j1, j2⟩ := hk.stored path c (some v) hv
    obtain ⟨r2, v', y, i1, i2, i3, i4⟩ := ho.2.2 path c (holds_field x.1 path c (some v) hv)
    rw [i1] at j1
    cases j1
    exact ⟨v', y, by rw [i2]; exact j2, i3, i4⟩
  · obtain ⟨r2, v', y, i1, i2, i3, i4⟩ := ho.2.2 [] _ hf
    rw [follow_nil] at i1
    cases i1
    exact ⟨v', y, by rw [i2]; exact hk.key k hkey, i3, i4⟩

open Classical in
/-- what a query finds of them. -/
theorem found_of {X : Type} (S : SqlServer) (m : ModelDef) (hs : Spec.ModelDef.Sound m) (mvs : List ModelVal)
    (hm : ∀ mv ∈ mvs, Insertable S m mv) {log : List Row} {ids : List UInt64} {rows rows' : Tables}
    (hi : InsertedAll mvs log ids) (hst : Stores S rows log rows') (hkd : (S.database rows').Keyed m)
    (conv : List Str × Str → Value → Out ParseError X) {objs : List (List ((List Str × Str) × X))} {recs : List Rec}
    (hr : recs.Perm ((rows' m.table).filter fun r => (S.database rows').Complete m r))
    (ho : List.Forall₂ (IsObject conv (S.database rows') m) objs recs) :
    ∃ found, found.Subperm objs ∧ List.Forall₂ (IsModel S conv m) (mvs.zip ids) found ∧
      (m.refs = .nil → ∃ old, objs.Perm (old ++ found) ∧
        List.Forall₂ (IsObject conv (S.database rows') m) old (rows m.table)) := by
  obtain ⟨added, news, e1, e2, e3, e4⟩ := C97_stored S m hs mvs hm hi hst
  have hkept := e3 rows' (Grows.refl _) hkd
  have hcomp : ∀ r ∈ news, (S.database rows').Complete m r := by
    intro r hr
    have h := List.forall₂_iff_get.1 hkept
    obtain ⟨i, hi, rfl⟩ := List.mem_iff_getElem.1 hr
    exact (h.2 i (h.1 ▸ hi) hi).complete
  have join : ∀ {zs : List (ModelVal × UInt64)} {rs : List Rec} {os : List (List ((List Str × Str) × X))},
      (∀ z ∈ zs, shape z.1 = m) → List.Forall₂ (Kept S rows' m) zs rs →
      List.Forall₂ (IsObject conv (S.database rows') m) os rs → List.Forall₂ (IsModel S conv m) zs os := by
    intro zs rs os hz h1 h2
    induction h1 generalizing os with
    | nil => cases h2; exact .nil
    | cons a _ ih =>
      cases h2 with
      | cons b h2 =>
        exact .cons (isModel_of (hz _ (List.mem_cons_self ..)) a b) (ih (fun z hz' => hz z (List.mem_cons_of_mem _ hz')) h2)
  have hshape : ∀ z ∈ mvs.zip ids, shape z.1 = m := fun z hz => (hm _ (List.of_mem_zip hz).1).shape
  by_cases hn : m.refs = .nil
  · obtain ⟨rfl, _⟩ := e4 hn
    have hall : (rows' m.table).filter (fun r => (S.database rows').Complete m r) = rows m.table ++ added := by
      rw [List.filter_eq_self.2, e1]
      intro r _
      rw [decide_eq_true_eq]
      intro p c hf
      cases m with
      | mk t pk plain structs refs =>
        cases hn
        cases hf with
        | own _ => exact ⟨r, follow_nil ..⟩
        | sub h => cases h
    rw [hall] at hr
    obtain ⟨os, o1, o2⟩ := forall₂_follow ho hr.symm
    have h2 := List.forall₂_take_append os _ _ o2
    have h3 := List.forall₂_drop_append os _ _ o2
    have happ := List.take_append_drop (rows m.table).length os
    refine ⟨os.drop (rows m.table).length, ?_, join hshape hkept h3, fun _ =>
      ⟨os.take (rows m.table).length, by rw [happ]; exact o1.symm, h2⟩⟩
    exact ((List.drop_sublist ..).subperm).trans o1.subperm
  · have hsub : news.Subperm recs := by
      refine List.Subperm.trans (List.Sublist.subperm ?_) hr.symm.subperm
      rw [e1, List.filter_append]
      refine List.Sublist.trans ?_ (List.sublist_append_right _ _)
      have := e2.filter fun r => decide ((S.database rows').Complete m r)
      rwa [List.filter_eq_self.2 fun r hr => by simpa using hcomp r hr] at this
    obtain ⟨os, o1, o2⟩ := forall₂_subperm ho hsub
    exact ⟨os, o1, join hshape hkept o2, fun h => absurd h hn⟩

/-- **C97**: either the server refuses a row, or all models are inserted, and then a query of the model, answered by the
server from its tables in any order, yields every one of them once; without references these and the rows that were
there before are all it yields. -/
theorem C97_found {X : Type} (S : SqlServer) (hS : Fair S) (m : ModelDef) (hs : Spec.ModelDef.Sound m)
    (mvs : List ModelVal) (hm : ∀ mv ∈ mvs, Insertable S m mv) (st : SqlState) :
    ∃ cmds sent st', S.talk st cmds = some (st', sent, Spec.commands cmds) ∧
      ((∃ done mv rest log1 ids log t fs e, mvs = done ++ mv :: rest ∧ InsertedAll done log1 ids ∧
          Spec.Begun mv.intoActive log (.ok (t, fs)) ∧ Stores S st.rows (log1 ++ log) st'.rows ∧
          S.refuses st'.rows (withRow st'.rows t (S.record st'.rows t (meanings fs))) = some e ∧
          ∀ (c : Conn) (r : List Rx), AtRest S c (rxOf sent ++ r) → ∃ q,
            insertAll mvs c = (.err (refusal S e), { c with
              rx := r, tx := c.tx ++ Spec.commands cmds, seqId := q })) ∨
       (∃ log ids, InsertedAll mvs log ids ∧ ids.length = mvs.length ∧ Stores S st.rows log st'.rows ∧
          ∀ (fp : FloatParse) (conv : List Str × Str → Value → Out ParseError X) (c : Conn)
            (ts : List Spec.Tok) (q : Spec.Select) (descs : List Spec.ColDesc) (cols : List Column)
            (rows : List (List Spec.Datum)) (ps : List Bytes) (status warnings : Nat) (r : List Rx),
            (S.database st'.rows).Keyed m →
            Spec.tokens (buildQuery m) = some ts → Spec.parseSelect ts = some q →
            DescsAs descs cols → descs.length < 2 ^ 56 →
            descs.map (fun d => (d.table, d.orgName)) = q.items →
            rows.Perm ((S.database st'.rows).select q) → TextRows fp cols rows ps →
            (∀ r ∈ st'.rows m.table, ∀ p c v r', HasField m p c →
              (S.database st'.rows).follow m r p = some r' → Spec.meaning v = r' c → ∃ x, conv (p, c) v = .ok x) →
            AtRest S c (rxOf sent ++ (rxOf (Spec.framesAll
              (UInt8.ofNat (Spec.frameCount (0x03 :: utf8 (buildQuery m))))
              (Spec.resultSet descs ps status warnings)) ++ r)) →
            ∃ c1 c2 c3 ok objs, insertAll mvs c = (.ok ids, c1) ∧
              query (buildQuery m) c1 = (.ok { columns := cols, okPacket := none }, c2) ∧
              RSet.collect (textReader fp (buildModel conv m)) { columns := cols, okPacket := none } c2
                = (.ok ({ columns := cols, okPacket := some ok }, objs), c3) ∧
              c3 = { c with rx := r, seqId := c3.seqId, pendingResult := false,
                            tx := c.tx ++ Spec.commands (cmds ++ [0x03 :: utf8 (buildQuery m)]) } ∧
              ∃ found, found.Subperm objs ∧ List.Forall₂ (IsModel S conv m) (mvs.zip ids) found ∧
                (m.refs = .nil → ∃ old, objs.Perm (old ++ found) ∧
                  List.Forall₂ (IsObject conv (S.database st'.rows) m) old (st.rows m.table)))) := by
  obtain ⟨cmds, sent, st', h1, h2⟩ := C97_inserted S hS m mvs hm st
  refine ⟨cmds, sent, st', h1, ?_⟩
  rcases h2 with ⟨log, ids, h2, h3, h4⟩ | h2
  swap
  · exact .inl h2
  refine .inr ⟨log, ids, h2, insertedAll_length h2, h3, ?_⟩
  intro fp conv c ts q descs cols rows ps status warnings r hkd ht hq hdc hl hds hperm htr hconv hc
  obtain ⟨q1, h5⟩ := h4 c _ hc
  obtain ⟨c2, objs, c3, ok, recs, g1, g2, g3, g4, g5⟩ := C65_models fp conv m hs
    (S.database st'.rows) hkd { c with
      rx := rxOf (Spec.framesAll (UInt8.ofNat (Spec.frameCount (0x03 :: utf8 (buildQuery m))))
              (Spec.resultSet descs ps status warnings)) ++ r
      tx := c.tx ++ Spec.commands cmds
      seqId := q1 } ts q ht hq descs cols rows ps status warnings r hc.pending hc.faults hdc hl hds hperm htr
      hconv rfl
  refine ⟨_, c2, c3, ok, objs, h5, g1, g2, ?_, found_of S m hs mvs hm h2 h3 hkd conv g3 g4⟩
  rw [g5, commands_append', ← List.append_assoc]
  simp [Spec.commands]

/-! ### two pets of two persons -/

namespace C97

/-- a second model like that of C67: another pet, another owner. -/
def cat : ModelVal := .mk "pet".toList "id".toList true
  [("id".toList, .ok (.uint 0)), ("name".toList, .ok (.bytes [75]))] []
  (.cons "owner".toList (.mk "person".toList "id".toList true
    [("id".toList, .ok (.uint 0)), ("name".toList, .ok (.bytes [66]))] [] .nil) .nil)

/-- the commands for the pet, then those for the cat. -/
def cmds : List Bytes := C66.cmds ++
  [0x16 :: utf8 "insert into `person` (`name`) values (?)".toList,
   [23, 2, 0, 0, 0, 0, 1, 0, 0, 0, 0, 1, 253, 0, 1, 66],
   0x16 :: utf8 "insert into `pet` (`name`, `owner`) values (?, ?)".toList,
   [23, 2, 0, 0, 0, 0, 1, 0, 0, 0, 0, 1, 253, 0, 8, 128, 1, 75, 62, 0, 0, 0, 0, 0, 0, 0]]

example : Insertable C66.server (shape C67.pet) C67.pet :=
  ⟨rfl, C67.pet_fits, by
    rw [show C67.pet.intoActive = C66.pet by
      unfold C67.pet C67.person C66.pet C66.person
      simp [ModelVal.intoActive, refsIntoActive]]
    exact C66.pet_writable, by
    simp [C67.pet, C67.person, ModelVal.intoActive, refsIntoActive, Spec.allDistinct, Spec.allDistinctRefs,
      Spec.ActiveModel.Distinct]⟩

/-- both are inserted; a query finds each with its owner. -/
example : (C66.server.talk C66.empty cmds).map (fun x =>
      ((insertAll [C67.pet, cat] (exConn x.2.1)).1, decide ((insertAll [C67.pet, cat] (exConn x.2.1)).2.tx = x.2.2),
        (insertAll [C67.pet, cat] (exConn x.2.1)).2.rx.length)) = some (.ok [31, 32], true, 0) ∧
    ((C66.server.talk C66.empty cmds).bind fun x =>
      ((Spec.tokens (buildQuery (shape cat))).bind Spec.parseSelect).map
        ((C66.server.database x.1.rows).select ·)) =
      some [[.int 4 true 31, .str [82], .int 4 true 61, .str [65]],
        [.int 4 true 32, .str [75], .int 4 true 62, .str [66]]] := by
  refine ⟨?_, ?_⟩ <;> decide +kernel

end C97

end Verif

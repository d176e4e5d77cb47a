import Verif.Proofs.Active
import Verif.Props.C06_LongData
import Verif.Props.C18_Prepare
import Verif.Props.C65_ModelQuery
import Verif.Spec.Lookup

/-!
# C81 — a model's query with a condition, and looking a model up by its key

`build_query` returns text; a user appends a condition, an order or a limit, and sends it as it is or as
a prepared statement with parameters.
-/

namespace Verif

open Spec (HasField HasRef Rec Joined Database refModel)

/-! ### the text -/

theorem Reads.joins_then {l : List Spec.Join} (hl : ∀ j ∈ l, '`' ∉ j.table ∧ '`' ∉ j.alias ∧ '`' ∉ j.parent ∧
    '`' ∉ j.field ∧ '`' ∉ j.key) {s : Str} {ts : List Spec.Tok} (h : Reads s ts) :
    Reads (l.flatMap joinTextOf ++ s) (l.flatMap joinToks ++ ts) := by
  induction l with
  | nil => exact h
  | cons j l ih =>
    obtain ⟨h1, h2, h3, h4, h5⟩ := hl j (List.mem_cons_self ..)
    rw [List.flatMap_cons, List.flatMap_cons, List.append_assoc, List.append_assoc]
    exact Reads.join h1 h2 h3 h4 h5 (ih fun x hx => hl x (List.mem_cons_of_mem _ hx))

theorem query_then (m : ModelDef) (h : Spec.ModelDef.Sound m) {s : Str} {us : List Spec.Tok}
    (hs : Reads s us) :
    ∃ ts, Reads (buildQuery m ++ ' ' :: s) (ts ++ us) ∧ Spec.parseSelect ts =
      some { items := (leaves m).map fun l => (Spec.aliasOf m.table l.1, l.2), table := m.table,
             joins := Spec.joinsOf m.table m } := by
  have ht := (sound_names m h).1
  have a := Reads.joins_then (joinsOf_noq m.table ht m h) hs.blank
  have hh : ((Spec.joinsOf m.table m).flatMap joinTextOf ++ ' ' :: s).head? ≠ some '`' := by
    cases Spec.joinsOf m.table m with
    | nil => simp
    | cons j l => intro hh; cases hh
  have a := Reads.name m.table ht hh a
  have a := Reads.fixed " from ".toList (ts := [.word "from".toList]) (by decide +kernel) (by decide) a
  have a := Reads.items (itemsAt_noq m.table ht m h) (by intro hh; cases hh) a
  have a := Reads.fixed "select ".toList (ts := [.word "select".toList]) (by decide +kernel) (by decide) a
  refine ⟨.word "select".toList :: (itemsToks (itemsAt m.table m) ++ .word "from".toList ::
      (.name m.table :: (Spec.joinsOf m.table m).flatMap joinToks)), ?_, ?_⟩
  · unfold buildQuery
    rw [appendModel_eq m.table m h]
    have e1 : " from `".toList = " from ".toList ++ ['`'] := by decide
    have e2 : "`".toList = ['`'] := by decide
    rw [e1, e2]
    simp only [List.append_assoc, List.nil_append, List.cons_append] at a ⊢
    exact a
  · rw [Spec.parseSelect, if_pos rfl, parseItems_eq _ (itemsAt_ne m.table m h)]
    dsimp only
    rw [parseJoins_eq, itemsAt_eq]
    rfl

/-- a condition on the key of the model. -/
def lookupText (m : ModelDef) : Str :=
  buildQuery m ++ " where `".toList ++ m.table ++ "`.`".toList ++ m.primary ++ "` = ?".toList

/-- Whatever the model, a condition put behind its query is read by the server as a condition on the
rows of the query: the query itself is read as before. -/
theorem C81_lookup_text (m : ModelDef) (h : Spec.ModelDef.Sound m) :
    ∃ ts us q, Spec.tokens (lookupText m) = some ts ∧ Spec.tokens (buildQuery m) = some us ∧
      Spec.parseSelect us = some q ∧ Spec.parseLookup ts = some (q, m.table, m.primary) := by
  obtain ⟨h1, h2⟩ := sound_names m h
  have a := Reads.fixed " = ?".toList (ts := [.punct '=', .punct '?']) (by decide) (by decide) Reads.nil
  have a := Reads.name m.primary h2 (by intro hh; cases hh) a
  have a := Reads.punct '.' (by decide) a
  have a := Reads.name m.table h1 (by intro hh; cases hh) a
  have a := Reads.fixed "where ".toList (ts := [.word "where".toList]) (by decide +kernel) (by decide) a
  obtain ⟨ts, k1, k2⟩ := query_then m h a
  obtain ⟨us, k3, k4⟩ := query_select m h
  refine ⟨_, us, _, Reads.of_eq k1 ?_, k3, k4, ?_⟩
  · unfold lookupText
    have e1 : " where `".toList = ' ' :: ("where ".toList ++ ['`']) := by decide
    have e2 : "`.`".toList = ['`', '.', '`'] := by decide
    have e3 : "` = ?".toList = '`' :: (" = ?".toList) := by decide
    rw [e1, e2, e3]
    simp
  · unfold Spec.parseLookup
    have e : ∀ x : List Spec.Tok, x.length = 6 → (ts ++ x).drop ((ts ++ x).length - 6) = x ∧
        (ts ++ x).take ((ts ++ x).length - 6) = ts := by
      intro x hx
      have : (ts ++ x).length - 6 = ts.length := by rw [List.length_append, hx]; omega
      rw [this]
      exact ⟨List.drop_left, List.take_left⟩
    obtain ⟨e1, e2⟩ := e ([.word "where".toList] ++ .name m.table :: .punct '.' :: .name m.primary ::
      ([.punct '=', .punct '?'] ++ [])) rfl
    rw [e1, e2]
    show (if "where".toList = "where".toList then _ else _) = _
    rw [if_pos rfl, k2]
    rfl

/-! ### the rows -/

theorem own_field (m : ModelDef) (h : Spec.ModelDef.Sound m) : ∃ c, HasField m [] c := by
  match m, h with
  | .mk t k plain structs refs, h =>
    rw [Spec.ModelDef.Sound] at h
    obtain ⟨c, hc⟩ := List.exists_mem_of_ne_nil _ h.2.2.2.1
    exact ⟨c, (mem_leaves _ _ _).1 (by
      rw [leaves]; exact List.mem_append_left _ (List.mem_map.2 ⟨c, hc, rfl⟩))⟩

open Classical in
/-- The combined rows: one for every row of the model's table all of whose references lead somewhere,
with this row under the name of the table and the others under the aliases of their paths. -/
theorem C81_joined (m : ModelDef) (h : Spec.ModelDef.Sound m) (db : Database) (hk : db.Keyed m)
    (ts : List Spec.Tok) (q : Spec.Select) (ht : Spec.tokens (buildQuery m) = some ts)
    (hq : Spec.parseSelect ts = some q) :
    (db.joined q).map (· m.table) = (db.rows m.table).filter (fun r => db.Complete m r) ∧
    db.select q = (db.joined q).map q.pick ∧
    ∀ e ∈ db.joined q, ∀ p c, HasField m p c →
      db.follow m (e m.table) p = some (e (Spec.aliasOf m.table p)) := by
  obtain ⟨ts', h1, h2⟩ := query_select m h
  rw [ht] at h1
  cases h1
  rw [hq] at h2
  cases h2
  refine ⟨?_, ?_, ?_⟩
  · unfold Database.joined
    dsimp only
    generalize db.rows m.table = rows
    induction rows with
    | nil => rfl
    | cons r rows ih =>
      rw [List.flatMap_cons, List.map_append, ih]
      have hj := join_extend db m m.table r (fun _ => r) [] hk rfl
      rw [List.append_nil] at hj
      rw [hj]
      by_cases hc : db.Complete m r
      · obtain ⟨e, he⟩ := extend_some db m m.table r (fun _ => r) h hc
        rw [List.filter_cons_of_pos (by simpa using hc), he]
        obtain ⟨c, hf⟩ := own_field m h
        have := extend_follow db m m.table r (fun _ => r) e h rfl he [] c hf
        rw [follow_nil, aliasOf_nil] at this
        rw [Option.some.inj this]
        rfl
      · rw [List.filter_cons_of_neg (by simpa using hc)]
        cases he : extend db m.table r m fun _ => r with
        | none => rfl
        | some e =>
          refine absurd (fun p c hp => ?_) hc
          exact ⟨_, extend_follow db m m.table r (fun _ => r) e h rfl he p c hp⟩
  · unfold Database.joined Database.select Spec.Select.pick
    rw [List.map_flatMap]
  · intro e he p c hp
    unfold Database.joined at he
    obtain ⟨r, hr, he⟩ := List.mem_flatMap.1 he
    dsimp only at he
    have hj := join_extend db m m.table r (fun _ => r) [] hk rfl
    rw [List.append_nil] at hj
    rw [hj] at he
    cases hx : extend db m.table r m fun _ => r with
    | none => rw [hx] at he; cases he
    | some e' =>
      rw [hx] at he
      have he : e = e' := by simpa [Database.join] using he
      subst he
      obtain ⟨c', hf⟩ := own_field m h
      have h0 := extend_follow db m m.table r (fun _ => r) e h rfl hx [] c' hf
      rw [follow_nil, aliasOf_nil] at h0
      rw [← Option.some.inj h0]
      exact extend_follow db m m.table r (fun _ => r) e h rfl hx p c hp

theorem joined_mem (m : ModelDef) (h : Spec.ModelDef.Sound m) (db : Database) (hk : db.Keyed m)
    {ts : List Spec.Tok} {q : Spec.Select} (ht : Spec.tokens (buildQuery m) = some ts)
    (hq : Spec.parseSelect ts = some q) {e : Joined} (he : e ∈ db.joined q) :
    e m.table ∈ db.rows m.table ∧ db.Complete m (e m.table) := by
  classical
  have : e m.table ∈ (db.joined q).map (· m.table) := List.mem_map.2 ⟨e, he, rfl⟩
  rw [(C81_joined m h db hk ts q ht hq).1] at this
  simpa using this

/-! ### reading them -/

theorem columnKeys_descs {descs : List Spec.ColDesc} {cols : List Column} (hd : DescsAs descs cols) :
    columnKeys cols = descs.map fun d => (d.table, d.orgName) := by
  unfold DescsAs at hd
  induction hd with
  | nil => rfl
  | @cons d col ds cols hd _ ih =>
    obtain ⟨t, _, rfl⟩ := hd
    unfold columnKeys at ih ⊢
    rw [List.map_cons, List.map_cons, ih]
    rfl

/-- the rows the server answers with: those of the list, in this order. -/
structure Answers (db : Database) (m : ModelDef) (q : Spec.Select) (descs : List Spec.ColDesc)
    (cols : List Column) (es : List Joined) : Prop where
  decoded : DescsAs descs cols
  count : descs.length < 2 ^ 56
  named : descs.map (fun d => (d.table, d.orgName)) = q.items
  chosen : ∀ e ∈ es, e ∈ db.joined q

/-- every value stored in a field's column can be converted into the field. -/
def Converts {X : Type} (conv : List Str × Str → Value → Out ParseError X) (db : Database)
    (m : ModelDef) : Prop :=
  ∀ r ∈ db.rows m.table, ∀ p c v r', HasField m p c → db.follow m r p = some r' →
    Spec.meaning v = r' c → ∃ x, conv (p, c) v = .ok x

section
variable {X : Type} {conv : List Str × Str → Value → Out ParseError X} {m : ModelDef}
  {db : Database} {ts : List Spec.Tok} {q : Spec.Select} {descs : List Spec.ColDesc} {cols : List Column}
  {es : List Joined}

theorem Answers.items (h : Spec.ModelDef.Sound m) (ht : Spec.tokens (buildQuery m) = some ts)
    (hq : Spec.parseSelect ts = some q) :
    q.items = (leaves m).map fun l => (Spec.aliasOf m.table l.1, l.2) := by
  obtain ⟨ts', h1, h2⟩ := query_select m h
  rw [ht] at h1
  cases h1
  rw [hq] at h2
  rw [Option.some.inj h2]

theorem Answers.ne (ha : Answers db m q descs cols es) (h : Spec.ModelDef.Sound m)
    (ht : Spec.tokens (buildQuery m) = some ts) (hq : Spec.parseSelect ts = some q) :
    descs ≠ [] ∧ cols ≠ [] := by
  have h0 : descs ≠ [] := by
    intro h0
    have := ha.named
    rw [h0, List.map_nil, Answers.items h ht hq] at this
    obtain ⟨c, hc⟩ := own_field m h
    have hm := (mem_leaves m [] c).2 hc
    rw [List.map_eq_nil_iff.1 this.symm] at hm
    cases hm
  refine ⟨h0, ?_⟩
  rintro rfl
  have := ha.decoded
  cases this
  exact h0 rfl

theorem Answers.object (ha : Answers db m q descs cols es) (h : Spec.ModelDef.Sound m)
    (hk : db.Keyed m) (ht : Spec.tokens (buildQuery m) = some ts) (hq : Spec.parseSelect ts = some q)
    (hconv : Converts conv db m) {e : Joined} (he : e ∈ es) {vs : List Value}
    (hv : vs.map Spec.meaning = q.pick e) :
    ∃ obj, buildModel conv m cols vs = .ok obj ∧ IsObject conv db m obj (e m.table) := by
  have hj := ha.chosen e he
  have hi := Answers.items h ht hq
  refine build_object conv m h db cols ?_ (e m.table) e
    ((C81_joined m h db hk ts q ht hq).2.2 e hj) vs ?_ ?_
  · rw [columnKeys_descs ha.decoded, ha.named, hi]
  · rw [hv, Spec.Select.pick, hi]
  · exact hconv _ (joined_mem m h db hk ht hq hj).1

theorem Answers.text {fp : FloatParse} {ps : List Bytes} (ha : Answers db m q descs cols es)
    (h : Spec.ModelDef.Sound m) (hk : db.Keyed m) (ht : Spec.tokens (buildQuery m) = some ts)
    (hq : Spec.parseSelect ts = some q) (hconv : Converts conv db m)
    (hrows : TextRows fp cols (es.map q.pick) ps) :
    ∃ objs, RowsAs (textReader fp (buildModel conv m)) cols ps objs ∧
      List.Forall₂ (IsObject conv db m) objs (es.map (· m.table)) := by
  have hc := (ha.ne h ht hq).2
  have key : ∀ e ∈ es, ∀ vs : List Value, vs.map Spec.meaning = q.pick e →
      ∃ obj, buildModel conv m cols vs = .ok obj ∧ IsObject conv db m obj (e m.table) :=
    fun e he vs hv => ha.object h hk ht hq hconv he hv
  clear ha
  induction es generalizing ps with
  | nil => cases hrows; exact ⟨[], .nil, .nil⟩
  | cons e es ih =>
    unfold TextRows at hrows
    cases hrows with
    | @cons p _ ps _ hp hr =>
    obtain ⟨objs, i1, i2⟩ := ih (ps := ps) hr fun e he => key e (List.mem_cons_of_mem _ he)
    obtain ⟨vs, k3, k4⟩ := C10_row_decodes fp cols _ p [] hp
    rw [List.append_nil] at k3
    obtain ⟨obj, k5, k6⟩ := key e (List.mem_cons_self ..) vs k4
    exact ⟨obj :: objs, .cons ⟨isRow_text hp (by simpa using hc), vs, k3, k5⟩ i1, .cons k6 i2⟩

theorem Answers.bin {ps : List Bytes} (ha : Answers db m q descs cols es)
    (h : Spec.ModelDef.Sound m) (hk : db.Keyed m) (ht : Spec.tokens (buildQuery m) = some ts)
    (hq : Spec.parseSelect ts = some q) (hconv : Converts conv db m)
    (hrows : BinRows cols (es.map q.pick) ps) :
    ∃ objs, RowsAs (binReader (buildModel conv m)) cols ps objs ∧
      List.Forall₂ (IsObject conv db m) objs (es.map (· m.table)) := by
  have key : ∀ e ∈ es, ∀ vs : List Value, vs.map Spec.meaning = q.pick e →
      ∃ obj, buildModel conv m cols vs = .ok obj ∧ IsObject conv db m obj (e m.table) :=
    fun e he vs hv => ha.object h hk ht hq hconv he hv
  clear ha
  induction es generalizing ps with
  | nil => cases hrows; exact ⟨[], .nil, .nil⟩
  | cons e es ih =>
    unfold BinRows at hrows
    cases hrows with
    | @cons p _ ps _ hp hr =>
    obtain ⟨objs, i1, i2⟩ := ih (ps := ps) hr fun e he => key e (List.mem_cons_of_mem _ he)
    obtain ⟨vs, k3, k4⟩ := C09_row_decodes cols p [] _ hp
    obtain ⟨obj, k5, k6⟩ := key e (List.mem_cons_self ..) vs k4
    exact ⟨obj :: objs, .cons ⟨isRow_bin hp, vs, k3, k5⟩ i1, .cons k6 i2⟩

end

/-- Any condition, order or limit put behind the query, as text: whichever of the combined rows the
server answers with, in whatever order and however often, collecting gives for each the value of the
model with the fields stored in its row and in the rows its references lead to. -/
theorem C81_clause {X : Type} (fp : FloatParse) (conv : List Str × Str → Value → Out ParseError X)
    (m : ModelDef) (h : Spec.ModelDef.Sound m) (db : Database) (hk : db.Keyed m) (c : Conn)
    (ts : List Spec.Tok) (q : Spec.Select) (ht : Spec.tokens (buildQuery m) = some ts)
    (hq : Spec.parseSelect ts = some q) (clause : Str) (descs : List Spec.ColDesc)
    (cols : List Column) (es : List Joined) (ps : List Bytes) (status warnings : Nat) (r : List Rx)
    (hp : c.pendingResult = false) (hw : c.wfaults = []) (ha : Answers db m q descs cols es)
    (hrows : TextRows fp cols (es.map q.pick) ps) (hconv : Converts conv db m)
    (hrx : c.rx = rxOf (Spec.framesAll
      (UInt8.ofNat (Spec.frameCount (0x03 :: utf8 (buildQuery m ++ clause))))
      (Spec.resultSet descs ps status warnings)) ++ r) :
    ∃ c1 objs c2 ok,
      query (buildQuery m ++ clause) c = (.ok { columns := cols, okPacket := none }, c1) ∧
      RSet.collect (textReader fp (buildModel conv m)) { columns := cols, okPacket := none } c1
        = (.ok ({ columns := cols, okPacket := some ok }, objs), c2) ∧
      List.Forall₂ (IsObject conv db m) objs (es.map (· m.table)) ∧
      (∀ e ∈ es, e m.table ∈ db.rows m.table ∧ db.Complete m (e m.table)) ∧
      c2 = { c with rx := r, tx := c.tx ++ Spec.frames 0 (0x03 :: utf8 (buildQuery m ++ clause)),
                    seqId := c2.seqId, pendingResult := false } := by
  obtain ⟨h0, -⟩ := ha.ne h ht hq
  obtain ⟨objs, g1, g2⟩ := ha.text h hk ht hq hconv hrows
  generalize buildQuery m ++ clause = sql at hrx ⊢
  unfold query
  rw [SM.bind_of_ok (executeCommand_clean .query (utf8 sql) c hp hw)]
  have e : Command.query.toByte = 0x03 := rfl
  rw [e]
  generalize hs : UInt8.ofNat (Spec.frameCount (0x03 :: utf8 sql)) = s at hrx
  have e2 : ({ c with tx := c.tx ++ Spec.frames 0 (0x03 :: utf8 sql), seqId := s } : Conn)
      = Conn.feed { c with tx := c.tx ++ Spec.frames 0 (0x03 :: utf8 sql) } s
          (headPackets descs ++ (ps ++ Spec.terminator status warnings :: [])) r := by
    simp only [Conn.feed, hrx, Spec.resultSet, headPackets]
    simp
  rw [e2, read_head descs cols _ s _ r ha.decoded h0 ha.count]
  have k := collect_rows (textReader fp (buildModel conv m)) { columns := cols, okPacket := none }
    { c with tx := c.tx ++ Spec.frames 0 (0x03 :: utf8 sql), pendingResult := true }
    (Spec.seqAfter s (headPackets descs)) ps [] objs status warnings r rfl g1
  refine ⟨_, objs, _, _, rfl, k, g2,
    fun e he => joined_mem m h db hk ht hq (ha.chosen e he), ?_⟩
  simp [Spec.framesAll, rxOf]

/-- The same for a prepared statement with any parameters: a server obtains these parameters. -/
theorem C81_statement {X : Type} (conv : List Str × Str → Value → Out ParseError X)
    (m : ModelDef) (h : Spec.ModelDef.Sound m) (db : Database) (hk : db.Keyed m) (c : Conn)
    (ts : List Spec.Tok) (q : Spec.Select) (ht : Spec.tokens (buildQuery m) = some ts)
    (hq : Spec.parseSelect ts = some q) (p : Prepared) (values : List Value)
    (hn : values.length = p.params) (descs : List Spec.ColDesc) (cols : List Column)
    (es : List Joined) (ps : List Bytes) (status warnings : Nat) (r : List Rx) (req : ExecRequest)
    (hp : c.pendingResult = false) (hw : c.wfaults = []) (ha : Answers db m q descs cols es)
    (hrows : BinRows cols (es.map q.pick) ps) (hconv : Converts conv db m)
    (hreq : ExecRequest.new (ε := Error) p.id values = .ok req)
    (hrx : c.rx = rxOf (Spec.framesAll (UInt8.ofNat (Spec.frameCount req.serialize))
      (Spec.resultSet descs ps status warnings)) ++ r) :
    ∃ c1 objs c2 ok ok',
      p.query values c = (.ok { columns := cols, okPacket := none }, c1) ∧
      RSet.collect (binReader (buildModel conv m)) { columns := cols, okPacket := none } c1
        = (.ok ({ columns := cols, okPacket := some ok }, objs), c2) ∧
      RSet.one (binReader (buildModel conv m)) { columns := cols, okPacket := none } c1
        = (.ok ({ columns := cols, okPacket := some ok' }, objs.head?), c2) ∧
      List.Forall₂ (IsObject conv db m) objs (es.map (· m.table)) ∧
      (∀ e ∈ es, e m.table ∈ db.rows m.table ∧ db.Complete m (e m.table)) ∧
      c2 = { c with rx := r, tx := c.tx ++ Spec.commands (execCmds p.id values req),
                    seqId := c2.seqId, pendingResult := false } := by
  obtain ⟨h0, -⟩ := ha.ne h ht hq
  obtain ⟨objs, g1, g2⟩ := ha.bin h hk ht hq hconv hrows
  obtain ⟨req', h3, h4⟩ := sendExecute_clean p.id values c hp hw
  rw [hreq] at h3
  injection h3 with h3
  subst h3
  unfold Prepared.query
  rw [if_neg (by simp [hn]), SM.bind_of_ok h4]
  generalize hs : UInt8.ofNat (Spec.frameCount req.serialize) = s at hrx
  have e2 : ({ c with tx := c.tx ++ Spec.commands (execCmds p.id values req), seqId := s } : Conn)
      = Conn.feed { c with tx := c.tx ++ Spec.commands (execCmds p.id values req) } s
          (headPackets descs ++ (ps ++ Spec.terminator status warnings :: [])) r := by
    simp only [Conn.feed, hrx, Spec.resultSet, headPackets]
    simp
  rw [e2, read_head descs cols _ s _ r ha.decoded h0 ha.count]
  have k := collect_rows (binReader (buildModel conv m)) { columns := cols, okPacket := none }
    { c with tx := c.tx ++ Spec.commands (execCmds p.id values req), pendingResult := true }
    (Spec.seqAfter s (headPackets descs)) ps [] objs status warnings r rfl g1
  obtain ⟨ok', k'⟩ := C12_one (binReader (buildModel conv m)) { columns := cols, okPacket := none }
    (Conn.feed { c with tx := c.tx ++ Spec.commands (execCmds p.id values req), pendingResult := true }
      (Spec.seqAfter s (headPackets descs)) (ps ++ Spec.terminator status warnings :: []) r)
    ps [] objs status warnings r rfl g1 rfl
  refine ⟨_, objs, _, _, ok', rfl, k, k', g2,
    fun e he => joined_mem m h db hk ht hq (ha.chosen e he), ?_⟩
  simp [Spec.framesAll, rxOf]

theorem execute_reaches (id : UInt32) (vs : List Value) (r : ExecRequest) (st : Spec.LongData)
    (hr : ExecRequest.new (ε := Error) id vs = .ok r) (hn : vs.length < 2 ^ 16)
    (hb : ∀ b, .bytes b ∈ vs → b.length < 2 ^ 64) (hst : ∀ j, st id.toNat j = none) :
    ∃ long st', execCmds id vs r = long ++ [r.serialize] ∧ Spec.longRun st long = some st' ∧
      Spec.readExecute vs.length (st' id.toNat) r.serialize
        = some { stmtId := id.toNat, cursorType := 0, iterations := 1, params := vs.map Spec.meaning } := by
  have h3 := ExecRequest.readExecute_spec id vs r hb hr
  obtain ⟨st', h4, -, -, h6⟩ := longRun_cmds id vs 0 (by omega) st (fun j _ => hst j)
  unfold execCmds
  cases hl : r.asLongData with
  | true =>
    rw [hl] at h3
    refine ⟨_, st', rfl, h4, ?_⟩
    have e : ExecRequest.longOf true vs = st' id.toNat := by
      funext i
      have := h6 i
      rw [Nat.zero_add] at this
      rw [this]
      simp only [ExecRequest.longOf, if_true]
      cases vs[i]? with
      | none => rfl
      | some v => cases v <;> rfl
    rw [← e]; exact h3
  | false =>
    rw [hl] at h3
    refine ⟨_, st, rfl, rfl, ?_⟩
    have e : ExecRequest.longOf false vs = st id.toNat := by
      funext i; simp [ExecRequest.longOf, hst]
    rw [← e]; exact h3

theorem filter_single {α : Type} {R : α → α → Prop} {l : List α} (P : α → Bool) (h : l.Pairwise R)
    (hR : ∀ a b, P a = true → P b = true → ¬R a b) : (l.filter P).length ≤ 1 := by
  induction h with
  | nil => simp
  | @cons a l ha _ ih =>
    rw [List.filter_cons]
    split
    · rename_i hp
      have : l.filter P = [] := by
        rw [List.filter_eq_nil_iff]
        intro b hb hpb
        exact hR a b hp hpb (ha b hb)
      rw [this]
      simp
    · exact ih

open Classical in
/-- **C81**: preparing the model's query with a condition on its key, and executing it with a value.
The server reads the text as the query with a condition on the key, and reads this value as the
parameter; if it answers with the rows for them, `one` gives the value of the model for the row with
this key if its references lead somewhere, and nothing if there is none. The connection is at the first
byte after the answers. -/
theorem C81_lookup {X : Type} (conv : List Str × Str → Value → Out ParseError X)
    (m : ModelDef) (h : Spec.ModelDef.Sound m) (db : Database) (hk : db.Keyed m)
    (hu : (db.rows m.table).Pairwise fun a b =>
      ∀ x, ¬(db.eq (a m.primary) x = true ∧ db.eq (b m.primary) x = true))
    (v : Value) (hv : ∀ b, v = .bytes b → b.length < 2 ^ 64) :
    ∃ ts q, Spec.tokens (lookupText m) = some ts ∧ Spec.parseLookup ts = some (q, m.table, m.primary) ∧
    ∀ (c : Conn) (id : UInt32) (warnings₁ : UInt16) (defs : List Bytes) (req : ExecRequest)
      (descs : List Spec.ColDesc) (cols : List Column) (rows : List (List Spec.Datum)) (ps : List Bytes)
      (status warnings : Nat) (r : List Rx) (st : Spec.LongData),
      c.pendingResult = false → c.wfaults = [] → (∀ j, st id.toNat j = none) → Converts conv db m →
      DescsAs descs cols → descs.length < 2 ^ 16 →
      descs.map (fun d => (d.table, d.orgName)) = q.items →
      rows.Perm ((db.lookup q m.table m.primary (Spec.meaning v)).map q.pick) → BinRows cols rows ps →
      defs.length = 1 + descs.length → ExecRequest.new (ε := Error) id [v] = .ok req →
      c.rx = rxOf (Spec.framesAll (UInt8.ofNat (Spec.frameCount (0x16 :: utf8 (lookupText m))))
          (Spec.stmtOk id.toNat descs.length 1 warnings₁.toNat :: defs)) ++
        (rxOf (Spec.framesAll (UInt8.ofNat (Spec.frameCount req.serialize))
          (Spec.resultSet descs ps status warnings)) ++ r) →
      ∃ p c1 c2 c3 ok obj long st',
        prepareStatement (lookupText m) c = (.ok p, c1) ∧
        p.query [v] c1 = (.ok { columns := cols, okPacket := none }, c2) ∧
        RSet.one (binReader (buildModel conv m)) { columns := cols, okPacket := none } c2
          = (.ok ({ columns := cols, okPacket := some ok }, obj), c3) ∧
        List.Forall₂ (IsObject conv db m) obj.toList ((db.rows m.table).filter fun r =>
          db.Complete m r ∧ db.eq (r m.primary) (Spec.meaning v) = true) ∧
        c3.tx = c.tx ++ Spec.frames 0 (0x16 :: utf8 (lookupText m)) ++
          Spec.commands (long ++ [req.serialize]) ∧
        Spec.longRun st long = some st' ∧
        Spec.readExecute 1 (st' id.toNat) req.serialize = some
          { stmtId := id.toNat, cursorType := 0, iterations := 1, params := [Spec.meaning v] } ∧
        c3 = { c with rx := r, tx := c3.tx, seqId := c3.seqId } := by
  obtain ⟨ts, us, q, t1, t2, t3, t4⟩ := C81_lookup_text m h
  refine ⟨ts, q, t1, t4, ?_⟩
  intro c id warnings₁ defs req descs cols rows ps status warnings r st hp hw hst hconv hd hl hdescs
    hperm hrows hdefs hreq hrx
  obtain ⟨j1, -, j3⟩ := C81_joined m h db hk us q t2 t3
  -- the chosen rows
  have hone : (db.lookup q m.table m.primary (Spec.meaning v)).length ≤ 1 := by
    unfold Database.lookup
    have hpw : ((db.joined q).map (· m.table)).Pairwise fun a b =>
        ∀ x, ¬(db.eq (a m.primary) x = true ∧ db.eq (b m.primary) x = true) := by
      rw [j1]; exact hu.filter _
    rw [List.pairwise_map] at hpw
    exact filter_single _ hpw fun a b ha hb hab => hab _ ⟨ha, hb⟩
  have hrowsq : rows = (db.lookup q m.table m.primary (Spec.meaning v)).map q.pick := by
    match hx : db.lookup q m.table m.primary (Spec.meaning v) with
    | [] => rw [hx] at hperm; simpa using hperm
    | [e] => rw [hx] at hperm; simpa using hperm
    | _ :: _ :: _ => rw [hx] at hone; simp at hone
  have hfil : (db.lookup q m.table m.primary (Spec.meaning v)).map (· m.table)
      = (db.rows m.table).filter fun r => db.Complete m r ∧ db.eq (r m.primary) (Spec.meaning v) = true := by
    unfold Database.lookup
    have e1 : (fun e : Joined => db.eq (e m.table m.primary) (Spec.meaning v))
        = (fun r : Rec => db.eq (r m.primary) (Spec.meaning v)) ∘ (· m.table) := rfl
    rw [e1, ← List.filter_map, j1, List.filter_filter]
    congr 1
    funext x
    simp [Bool.and_comm]
  generalize hes : db.lookup q m.table m.primary (Spec.meaning v) = es at hone hrowsq hfil
  have ha : Answers db m q descs cols es := by
    refine ⟨hd, by omega, hdescs, fun e he => ?_⟩
    rw [← hes] at he
    exact (List.mem_filter.1 he).1
  -- preparing
  have hdl : (UInt16.ofNat descs.length).toNat = descs.length := by
    rw [UInt16.toNat_ofNat']; exact Nat.mod_eq_of_lt hl
  obtain ⟨s1, p1⟩ := C18_prepare (lookupText m) c id (UInt16.ofNat descs.length) 1 warnings₁ defs
    (rxOf (Spec.framesAll (UInt8.ofNat (Spec.frameCount req.serialize))
      (Spec.resultSet descs ps status warnings)) ++ r) hp hw (by rw [hdl, hdefs]; rfl) (by
        rw [hdl]; exact hrx)
  obtain ⟨c2, objs, c3, ok, ok', g1, -, g3, g4, -, g6⟩ := C81_statement conv m h db hk
    { c with rx := rxOf (Spec.framesAll (UInt8.ofNat (Spec.frameCount req.serialize))
                (Spec.resultSet descs ps status warnings)) ++ r,
             tx := c.tx ++ Spec.frames 0 (0x16 :: utf8 (lookupText m)), seqId := s1 }
    us q t2 t3 { id := id, params := 1 } [v] rfl descs cols es ps status warnings r req hp hw ha
    (by rw [← hrowsq]; exact hrows) hconv hreq rfl
  obtain ⟨long, st', l1, l2, l3⟩ := execute_reaches id [v] req st hreq (by simp)
    (fun b hb => hv b (List.mem_singleton.1 hb).symm) hst
  refine ⟨_, _, c2, c3, ok', objs.head?, long, st', p1, g1, g3, ?_, ?_, l2, l3, ?_⟩
  · rw [← hfil]
    have : objs.head?.toList = objs := by
      have hlen := g4.length_eq
      rw [List.length_map] at hlen
      match objs with
      | [] => rfl
      | [o] => rfl
      | _ :: _ :: _ => simp at hlen; omega
    rw [this]
    exact g4
  · rw [g6]
    dsimp only
    rw [l1]
  · rw [g6]
    simp [hp]

/-! ### a concrete session -/

namespace C81ex

def i32 (n : Nat) : Bytes := [UInt8.ofNat n, 0, 0, 0]

def str (s : String) : Bytes := Spec.lenencStr (utf8 s.toList)

def descs : List Spec.ColDesc := [C65.desc "pet" "id" 3, C65.desc "pet" "name" 253,
  C65.desc "pet.owner" "id" 3, C65.desc "pet.owner" "name" 253]

/-- the row of the answer for 9. -/
def kit : Bytes := [0, 0] ++ i32 9 ++ str "Kit" ++ i32 1 ++ str "Ann"

/-- what the server sends: the statement with one parameter and four columns, then the rows. -/
def answers (rows : List Bytes) : Bytes :=
  Spec.framesAll 1 (Spec.stmtOk 5 4 1 0 :: [[1], [2], [3], [4], [5]]) ++
    Spec.framesAll 1 (Spec.resultSet descs rows 2 0)

def session (key : Int32) (rows : List Bytes) : Out Error (Option (List (Int32 ⊕ Str))) × Conn :=
  (do
    let p ← prepareStatement (lookupText C65.pet)
    let rs ← p.query [.int key]
    let (_, x) ← rs.one (binReader (buildModel C65.conv C65.pet))
    pure (x.map (·.map Prod.snd)) : M (Option (List (Int32 ⊕ Str)))) (exConn (answers rows))

end C81ex

open C81ex in
/-- The pet 9 with its owner; the pet 8 has no owner and is not found, as well as 3, which is none. -/
theorem C81_example :
    lookupText C65.pet = ("select `pet`.`id`, `pet`.`name`, `pet.owner`.`id`, `pet.owner`.`name` from `pet` " ++
      "join `person` as `pet.owner` on (`pet`.`owner` = `pet.owner`.`id`) where `pet`.`id` = ?").toList ∧
    (((Spec.tokens (lookupText C65.pet)).bind Spec.parseLookup).map fun x =>
      [9, 8, 3].map fun k => (C65.db.lookup x.1 x.2.1 x.2.2 (.int 4 false k)).map x.1.pick) =
        some [[[.int 4 false 9, .str (utf8 "Kit".toList), .int 4 false 1, .str (utf8 "Ann".toList)]], [], []] ∧
    (session 9 [kit]).1 = .ok (some [.inl 9, .inr "Kit".toList, .inl 1, .inr "Ann".toList]) ∧
    (session 8 []).1 = .ok none ∧
    (session 9 [kit]).2.rx = [] ∧ (session 9 [kit]).2.pendingResult = false := by
  refine ⟨?_, ?_, ?_, ?_, ?_, ?_⟩ <;> decide +kernel

end Verif

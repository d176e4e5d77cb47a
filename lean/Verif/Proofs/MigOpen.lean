import Verif.Proofs.MigSql
import Verif.Proofs.Handshake
import Verif.Props.C48_Versions

/-! # Lemmas: starting a migrator on a server with a table of migrations -/

namespace Verif

open Spec (MigServer MigStore MigCmd SqlError Applied)

theorem utf8_length_le (s : Str) : (utf8 s).length ≤ 4 * s.length := by
  induction s with
  | nil => simp [utf8]
  | cons c s ih =>
    rw [utf8, List.length_append, List.length_cons]
    have : (utf8Char c).length ≤ 4 := by
      unfold utf8Char
      dsimp only
      split
      · simp
      · split
        · simp
        · split <;> simp
    omega

theorem meaning_ushort {v : Value} {x : UInt16} (h : Spec.meaning v = .int 2 true x.toNat) : v = .ushort x := by
  cases v <;> simp [Spec.meaning, Spec.mkTime] at h
  · rename_i y
    have : y = x := UInt16.toNat_inj.mp (by omega)
    rw [this]

theorem meaning_bytes {v : Value} {b : Bytes} (h : Spec.meaning v = .str b) : v = .bytes b := by
  cases v <;> simp [Spec.meaning, Spec.mkTime] at h
  rw [h]

variable {W : Type} (S : MigServer W)

theorem unsigned_flag (n : Nat) (h : n < 2 ^ 16) (u : Bool) :
    n / 64 * 64 + (if u then 32 else 0) + n % 32 < 2 ^ 16 ∧
    hasFlag16 (UInt16.ofNat (n / 64 * 64 + (if u then 32 else 0) + n % 32)) ColFlag.UNSIGNED = u := by
  have h1 : n / 64 * 64 + (if u then 32 else 0) + n % 32 < 2 ^ 16 := by
    split <;> omega
  refine ⟨h1, ?_⟩
  have h2 : ∀ m : Nat, m < 2 ^ 16 → hasFlag16 (UInt16.ofNat m) ColFlag.UNSIGNED = decide (m / 32 % 2 = 1) := by
    intro m hm
    unfold hasFlag16
    rw [Bool.eq_iff_iff, beq_iff_eq, decide_eq_true_iff, ← UInt16.toNat_inj, UInt16.toNat_and,
      UInt16.toNat_ofNat_of_lt' hm, show ColFlag.UNSIGNED.toNat = 2 ^ 5 from rfl, nat_and_two_pow,
      Nat.testBit_eq_decide_div_mod_eq]
    by_cases hb : m / 2 ^ 5 % 2 = 1
    · simp only [hb, decide_true, Bool.toNat_true]; omega
    · simp only [hb, decide_false, Bool.toNat_false]; omega
  rw [h2 _ h1]
  cases u
  · simp only [Bool.false_eq_true, if_false, decide_eq_false_iff_not]; omega
  · simp only [if_true, decide_eq_true_iff]; omega

/-- the columns of the table. -/
def migColumns : List Column :=
  [columnOf (S.descOf "version_0".toList 2 true) .short, columnOf (S.descOf "version_1".toList 2 true) .short,
   columnOf (S.descOf "version_2".toList 2 true) .short, columnOf (S.descOf "name".toList 253 false) .varString]

theorem descOk_of (hS : FairMig S) (col : Str) (hc : (utf8 col).length < 251) (code : Nat) (u : Bool)
    (t : ColumnType) (ht : code = t.toByte.toNat) : DescOk (S.descOf col code u) t := by
  obtain ⟨⟨h1, h2, h3, h3n, _⟩, h4, h5, h6⟩ := hS.desc col
  exact ⟨⟨h1, h2, h3, h3n, hc⟩, ht, (unsigned_flag _ h4 u).1, h5, h6⟩

theorem wireType_of (hS : FairMig S) (col : Str) (code : Nat) (u : Bool) (t : ColumnType)
    (ht : code = t.toByte.toNat) : (columnOf (S.descOf col code u) t).wireType = (code, u) := by
  obtain ⟨_, h4, _⟩ := hS.desc col
  unfold Column.wireType
  rw [ht]
  exact congrArg _ (unsigned_flag _ h4 u).2

theorem descsAs_columns (hS : FairMig S) : DescsAs S.columns (migColumns S) := by
  unfold Spec.MigServer.columns migColumns
  refine .cons ⟨.short, descOk_of S hS _ (by decide) _ _ _ rfl, rfl⟩ ?_
  refine .cons ⟨.short, descOk_of S hS _ (by decide) _ _ _ rfl, rfl⟩ ?_
  refine .cons ⟨.short, descOk_of S hS _ (by decide) _ _ _ rfl, rfl⟩ ?_
  exact .cons ⟨.varString, descOk_of S hS _ (by decide) _ _ _ rfl, rfl⟩ .nil

theorem textForm_u16 (fp : FloatParse) (x : UInt16) :
    Spec.TextForm fp 2 true (.int 2 true x.toNat) (Spec.dec x.toNat) := by
  have := x.toNat_lt
  refine ⟨rfl, rfl, ?_, 0, ?_⟩
  · unfold Spec.inRange
    rw [if_pos rfl]
    omega
  · unfold Spec.textInt
    rw [if_neg (by omega)]
    simp

theorem textRow_of (hS : FairMig S) (fp : FloatParse) (k : MigKey) (hk : k.2.length ≤ 255) :
    Spec.TextRow fp ((migColumns S).map Column.wireType)
      [.int 2 true k.1.major.toNat, .int 2 true k.1.minor.toNat, .int 2 true k.1.patch.toNat, .str (utf8 k.2)]
      (Spec.MigServer.rowText k) := by
  have hl : ∀ x : UInt16, (Spec.dec x.toNat).length < 2 ^ 64 := by
    intro x
    have := x.toNat_lt
    have := length_dec_le 5 x.toNat (by omega) (by omega)
    omega
  have hn := utf8_length_le k.2
  unfold migColumns Spec.MigServer.rowText
  simp only [List.map_cons, List.map_nil, wireType_of S hS _ 2 true .short rfl,
    wireType_of S hS _ 253 false .varString rfl, List.append_assoc]
  refine .cell (textForm_u16 fp _) (hl _) (.cell (textForm_u16 fp _) (hl _) (.cell (textForm_u16 fp _) (hl _) ?_))
  rw [← List.append_nil (Spec.lenencStr _)]
  exact .cell ⟨rfl, by decide, rfl⟩ (by omega) .nil

theorem migrationOf_of (k : MigKey) : migrationOf (migColumns S)
    [.ushort k.1.major, .ushort k.1.minor, .ushort k.1.patch, .bytes (utf8 k.2)] = .ok k := by
  have hm : MigMapping.fromColumns 0 (migColumns S) ⟨none, none, none, none⟩ = ⟨some 0, some 1, some 2, some 3⟩ := by
    unfold migColumns
    simp only [MigMapping.fromColumns]
    simp only [columnOf, Spec.MigServer.descOf]
    decide +kernel
  unfold migrationOf
  dsimp only
  rw [hm]
  simp only [takeField, tryInto, Out.map', List.getElem?_cons_zero, List.getElem?_cons_succ, List.set_cons_zero,
    List.set_cons_succ, fromUtf8_utf8, Out.ofOption]

theorem rowsAs_keys (hS : FairMig S) (fp : FloatParse) (ks : List MigKey) (hk : ∀ k ∈ ks, k.2.length ≤ 255) :
    RowsAs (textReader fp migrationOf) (migColumns S) (ks.map Spec.MigServer.rowText) ks := by
  induction ks with
  | nil => exact .nil
  | cons k ks ih =>
    refine .cons ?_ (ih fun j hj => hk j (List.mem_cons_of_mem _ hj))
    have ht := textRow_of S hS fp k (hk k (List.mem_cons_self ..))
    obtain ⟨vs, h1, h2⟩ := C10_row_decodes fp (migColumns S) _ _ [] ht
    rw [List.append_nil] at h1
    refine ⟨isRow_text ht (by simp [migColumns]), vs, h1, ?_⟩
    match vs with
    | [a, b, c, d] =>
      simp only [List.map_cons, List.map_nil, List.cons.injEq, and_true] at h2
      obtain ⟨h3, h4, h5, h6⟩ := h2
      rw [meaning_ushort h3, meaning_ushort h4, meaning_ushort h5, meaning_bytes h6]
      exact migrationOf_of S k
    | [] | [_] | [_, _] | [_, _, _] => simp at h2
    | _ :: _ :: _ :: _ :: _ :: _ => simp at h2

/-! ### `new` -/

attribute [local irreducible] existsSql createSql selectSql

/-- a statement as a command. -/
def cmdOf (sql : Str) : Bytes := 0x03 :: utf8 sql

theorem rows_one (hS : FairMig S) (fp : FloatParse) (n : Nat) : ∃ cols rows,
    DescsAs [S.oneDesc] cols ∧ TextRows fp cols rows (List.replicate n (Spec.lenencStr (Spec.dec 1))) ∧
    rows.length = n := by
  obtain ⟨t, h1, w, u, h2, h3, h4⟩ := hS.one
  refine ⟨[columnOf S.oneDesc t], List.replicate n [.int w u 1], .cons ⟨t, h1, rfl⟩ .nil, ?_, by simp⟩
  have hrow : Spec.TextRow fp ([columnOf S.oneDesc t].map Column.wireType) [.int w u 1]
      (Spec.lenencStr (Spec.dec 1)) := by
    rw [List.map_cons, List.map_nil, h4, ← List.append_nil (Spec.lenencStr _)]
    refine .cell ⟨rfl, h2, ?_, 0, by decide +kernel⟩ (by decide +kernel) .nil
    unfold Spec.inRange
    have hp : (2 : Int) ≤ 2 ^ (8 * w - 1) := by
      have : 2 ^ 1 ≤ 2 ^ (8 * w - 1) := Nat.pow_le_pow_right (by omega) (by omega)
      exact_mod_cast this
    split
    · refine ⟨by omega, ?_⟩
      have : (2 : Int) ^ (8 * w - 1) ≤ 2 ^ (8 * w) := by
        have : 2 ^ (8 * w - 1) ≤ 2 ^ (8 * w) := Nat.pow_le_pow_right (by omega) (by omega)
        exact_mod_cast this
      omega
    · exact ⟨by omega, by omega⟩
  unfold TextRows
  induction n with
  | zero => exact .nil
  | succ n ih => exact .cons hrow ih

theorem execute_create {sql : Str} (h : (Spec.tokens sql).bind Spec.readMig = some .create) {st : MigStore W}
    (hs : st.table = none) : S.execute st sql = .ok (⟨some [], st.world⟩, 0) := by
  unfold Spec.MigServer.execute
  rw [h, hs]

theorem execAll_single (sql : Str) : Spec.execAll [sql] = (do
    let _ ← executeQuery sql
    pure ()) := rfl

theorem react_exists (st : MigStore W) :
    S.react st (cmdOf existsSql) = some (st, Spec.resultSet [S.oneDesc]
      (List.replicate (if st.table.isSome then S.partitions + 1 else 0) (Spec.lenencStr (Spec.dec 1)))
      S.status.toNat S.warnings.toNat) := by
  unfold cmdOf
  rw [Spec.MigServer.react, fromUtf8_utf8]
  simp only [Option.bind_eq_bind, Option.bind_some]
  rw [reads_exists]

/-- asking for the table, on the connection. -/
theorem ensureTable_ask (hS : FairMig S) (fp : FloatParse) (st : MigStore W) :
    ∀ (c : Conn) (r : List Rx), MigRest S c (rxOf (Spec.framesAll (UInt8.ofNat (Spec.frameCount (cmdOf existsSql)))
      (Spec.resultSet [S.oneDesc] (List.replicate (if st.table.isSome then S.partitions + 1 else 0)
        (Spec.lenencStr (Spec.dec 1))) S.status.toNat S.warnings.toNat)) ++ r) →
      ∃ q, ensureTable fp c = (if st.table.isSome then (pure () : M Unit) else (do
        let _ ← executeQuery createSql
        pure ())) { c with
          rx := r
          tx := c.tx ++ Spec.commands [cmdOf existsSql]
          seqId := q } := by
  obtain ⟨cols, rows, d1, d2, d3⟩ := rows_one S hS fp (if st.table.isSome then S.partitions + 1 else 0)
  intro c r hc
  obtain ⟨c1, xs, c2, ok, h1, h2, h3, h4⟩ := C12_query_collect fp existsSql c [S.oneDesc] cols rows _
    S.status.toNat S.warnings.toNat r hc.pending hc.faults d1 (by simp) (by simp) d2 hc.rx
  refine ⟨c2.seqId, ?_⟩
  unfold ensureTable
  rw [SM.bind_of_ok h1, SM.bind_of_ok h2]
  dsimp only
  have hx : xs.isEmpty = !st.table.isSome := by
    have hl := congrArg List.length h3
    rw [List.length_map, d3] at hl
    cases hsome : st.table.isSome with
    | true =>
      rw [hsome, if_pos rfl] at hl
      cases xs with
      | nil => simp at hl
      | cons => rfl
    | false =>
      rw [hsome, if_neg (by simp)] at hl
      cases xs with
      | nil => rfl
      | cons => simp at hl
  have hc2 : c2 = { c with
        rx := r
        tx := c.tx ++ Spec.commands [cmdOf existsSql]
        seqId := c2.seqId } := by
    have hp := hc.pending
    rw [h4]
    cases c
    simp only [Spec.commands, List.flatMap_cons, List.flatMap_nil, List.append_nil, cmdOf] at hp ⊢
    subst hp
    rfl
  rw [hx]
  conv_lhs => rw [hc2]
  cases st.table.isSome <;> rfl

theorem ensureTable_talk (hS : FairMig S) (fp : FloatParse) (st : MigStore W) :
    ∃ sent, S.talk st ((if st.table.isSome then [existsSql] else [existsSql, createSql]).map cmdOf) =
        some ({ st with table := some (st.table.getD []) }, sent,
          Spec.commands ((if st.table.isSome then [existsSql] else [existsSql, createSql]).map cmdOf)) ∧
      ∀ (c : Conn) (r : List Rx), MigRest S c (rxOf sent ++ r) →
        ∃ q, ensureTable fp c = (.ok (), { c with
          rx := r
          tx := c.tx ++ Spec.commands ((if st.table.isSome then [existsSql] else [existsSql, createSql]).map cmdOf)
          seqId := q }) := by
  have htalk := mtalk_one S st st _ _ (react_exists S st)
  have hask := ensureTable_ask S hS fp st
  cases hsome : st.table with
  | some rows =>
    rw [hsome] at htalk hask
    have he : ({ st with table := some ((some rows).getD []) } : MigStore W) = st := by
      cases st
      cases hsome
      rfl
    rw [he, if_pos (by rfl : (some rows).isSome = true), List.map_cons, List.map_nil]
    refine ⟨_, htalk, fun c r hc => ?_⟩
    obtain ⟨q, h⟩ := hask c r hc
    rw [if_pos (by rfl : (some rows).isSome = true)] at h
    exact ⟨q, h⟩
  | none =>
    rw [hsome] at htalk hask
    generalize Spec.framesAll _ (Spec.resultSet _ _ _ _) = sent1 at htalk hask
    have hx : S.execute st createSql = .ok (⟨some [], st.world⟩, 0) := by
      exact execute_create S reads_create hsome
    obtain ⟨st', e, sent2, g1, g2, g3⟩ := exec_one S hS st createSql isExec_create
    rw [hx] at g2
    obtain ⟨rfl, rfl⟩ := g2
    have hcm : Spec.commands ([existsSql, createSql].map cmdOf) =
        Spec.commands [cmdOf existsSql] ++ Spec.commands [cmdOf createSql] := by
      rw [← commands_append', List.map_cons, List.map_cons, List.map_nil, List.cons_append, List.nil_append]
    refine ⟨sent1 ++ sent2, ?_, fun c r hc => ?_⟩
    rotate_left
    · rw [rxOf_append, List.append_assoc] at hc
      obtain ⟨q, h⟩ := hask c (rxOf sent2 ++ r) hc
      obtain ⟨q2, h2⟩ := g3 _ r (MigRest.next hc (rxOf sent2 ++ r) (c.tx ++ Spec.commands [cmdOf existsSql]) q)
      refine ⟨q2, ?_⟩
      rw [h]
      have : Spec.commands [0x03 :: utf8 createSql] = Spec.commands [cmdOf createSql] := rfl
      simp only [Option.isSome_none, Bool.false_eq_true, if_false]
      rw [execAll_single, this] at h2
      rw [hcm, ← List.append_assoc, h2]
      rfl
    · simp only [Option.isSome_none, Bool.false_eq_true, if_false]
      rw [show [existsSql, createSql].map cmdOf = [cmdOf existsSql] ++ [cmdOf createSql] from rfl, mtalk_append,
        htalk, Option.bind_some]
      have g1' : S.talk st [cmdOf createSql] = _ := g1
      rw [g1', Option.map_some, commands_append']
      rfl

theorem tidy_load (ms : List MigList) (ks : List MigKey) (a b : Version → List Str) (ha : Tidy a)
    (hn : ks.Nodup) (hk : ∀ k ∈ ks, ¬ Applied a k) (h : loadApplied ms ks a = some b) : Tidy b := by
  induction ks generalizing a with
  | nil => cases h; exact ha
  | cons k ks ih =>
    rw [loadApplied] at h
    split at h
    · rw [List.nodup_cons] at hn
      refine ih _ (tidy_insert ha (hk k (List.mem_cons_self ..))) hn.2 (fun j hj => ?_) h
      rw [applied_insert]
      rintro (hj' | rfl)
      · exact hk j (List.mem_cons_of_mem _ hj) hj'
      · exact hn.1 hj
    · cases h

theorem loadTable_talk (hS : FairMig S) (fp : FloatParse) (ms : List MigList) (w : W) (rows : List MigKey)
    (hk : ∀ k ∈ rows, k.2.length ≤ 255) :
    ∃ sent, S.talk ⟨some rows, w⟩ [cmdOf selectSql] =
        some (⟨some rows, w⟩, sent, Spec.commands [cmdOf selectSql]) ∧
      ∀ (c : Conn) (r : List Rx), MigRest S c (rxOf sent ++ r) →
        (∀ a, migratorNew ms (S.order rows) = some a → ∃ q, loadTable fp ms c = (.ok a, { c with
          rx := r
          tx := c.tx ++ Spec.commands [cmdOf selectSql]
          seqId := q })) ∧
        (migratorNew ms (S.order rows) = none → (loadTable fp ms c).1 = .panic) := by
  have hreact : S.react ⟨some rows, w⟩ (cmdOf selectSql) = some (⟨some rows, w⟩, Spec.resultSet S.columns
      ((S.order rows).map Spec.MigServer.rowText) S.status.toNat S.warnings.toNat) := by
    unfold cmdOf
    rw [Spec.MigServer.react, fromUtf8_utf8]
    simp only [Option.bind_eq_bind, Option.bind_some]
    rw [reads_select]
  refine ⟨_, mtalk_one S _ _ _ _ hreact, fun c r hc => ?_⟩
  have hd := descsAs_columns S hS
  have hrows := rowsAs_keys S hS fp (S.order rows) fun k hk' => hk k ((hS.order rows).mem_iff.1 hk')
  have hrx := hc.rx
  generalize hs : UInt8.ofNat (Spec.frameCount (cmdOf selectSql)) = s at hrx
  have hq : query selectSql c = RSet.read (Conn.feed { c with tx := c.tx ++ Spec.frames 0 (cmdOf selectSql) } s
          (headPackets S.columns ++ ((S.order rows).map Spec.MigServer.rowText ++
            [Spec.terminator S.status.toNat S.warnings.toNat])) r) := by
    unfold query
    rw [SM.bind_of_ok (executeCommand_clean .query (utf8 selectSql) c hc.pending hc.faults)]
    have e : Command.query.toByte :: utf8 selectSql = cmdOf selectSql := rfl
    rw [e, hs]
    simp only [Conn.feed, hrx, Spec.resultSet, headPackets]
    simp
  rw [read_head S.columns (migColumns S) _ _ _ _ hd (by simp [Spec.MigServer.columns])
    (by simp [Spec.MigServer.columns])] at hq
  generalize hc1 : ({ c with tx := c.tx ++ Spec.frames 0 (cmdOf selectSql) } : Conn) = c0 at hq
  generalize Spec.seqAfter s (headPackets S.columns) = s1 at hq
  have e3 : ({ Conn.feed c0 s1 ((S.order rows).map Spec.MigServer.rowText ++
            [Spec.terminator S.status.toNat S.warnings.toNat]) r with pendingResult := true } : Conn) =
      Conn.feed { c0 with pendingResult := true } s1 ((S.order rows).map Spec.MigServer.rowText ++
            [Spec.terminator S.status.toNat S.warnings.toNat]) r := rfl
  rw [e3] at hq
  have hcol := fun n => collectLoop_rows (textReader fp migrationOf) { columns := migColumns S, okPacket := none }
    { c0 with pendingResult := true } s1 ((S.order rows).map Spec.MigServer.rowText) [] (S.order rows)
    S.status.toNat S.warnings.toNat r n rfl hrows
  have hlen := feed_rx_length { c0 with pendingResult := true } s1 ((S.order rows).map Spec.MigServer.rowText ++
            [Spec.terminator S.status.toNat S.warnings.toNat]) r
  rw [List.length_append] at hlen
  have hcol' := hcol _ (by omega :
    ((S.order rows).map Spec.MigServer.rowText).length < (Conn.feed { c0 with pendingResult := true } s1
      ((S.order rows).map Spec.MigServer.rowText ++
            [Spec.terminator S.status.toNat S.warnings.toNat]) r).rx.length + 2)
  unfold loadTable
  rw [SM.bind_of_ok hq, SM.get_bind_apply]
  constructor
  · intro a ha
    refine ⟨Spec.seqAfter s1 ((S.order rows).map Spec.MigServer.rowText) + 1, ?_⟩
    refine ((loadLoop_ok fp ms _ _ _ a _ _).2 ⟨_, _, hcol', ha⟩).trans ?_
    congr 1
    have hp := hc.pending
    rw [← hc1]
    cases c
    simp only [Spec.commands, List.flatMap_cons, List.flatMap_nil, List.append_nil] at hp ⊢
    subst hp
    simp [Spec.framesAll]
  · intro hn
    exact loadLoop_panic fp ms _ _ _ _ _ _ _ hcol' hn

end Verif

import Verif.Props.C11_RowsAndTerminators
import Verif.Proofs.Example

/-! # C12 — iterating a result set yields exactly the server's rows -/

namespace Verif

/-- text rows for the columns `cols` that mean `rows`. -/
def TextRows (fp : FloatParse) (cols : List Column) (rows : List (List Spec.Datum)) (ps : List Bytes) :
    Prop :=
  List.Forall₂ (fun p ds => Spec.TextRow fp (cols.map Column.wireType) ds p) ps rows

/-- binary rows for the columns `cols` that mean `rows`. -/
def BinRows (cols : List Column) (rows : List (List Spec.Datum)) (ps : List Bytes) : Prop :=
  List.Forall₂ (fun p ds => Spec.readRow (cols.map Column.wireType) p = some (ds, [])) ps rows

theorem textRow_length {fp : FloatParse} {ts : List (Nat × Bool)} {ds : List Spec.Datum} {p : Bytes}
    (h : Spec.TextRow fp ts ds p) : ds.length = ts.length := by
  induction h with
  | nil => rfl
  | null _ ih => simp [ih]
  | cell _ _ _ ih => simp [ih]

theorem mkPlain_of {cols : List Column} {vs : List Value} {ds : List Spec.Datum}
    (h : vs.map Spec.meaning = ds) (hl : ds.length = cols.length) : mkPlain cols vs = .ok vs := by
  unfold mkPlain
  rw [if_neg]
  rw [← hl, ← h, List.length_map]
  simp

theorem rowsAs_text {fp : FloatParse} {cols : List Column} {rows : List (List Spec.Datum)}
    {ps : List Bytes} (h : TextRows fp cols rows ps) (hne : cols ≠ []) :
    ∃ xs, RowsAs (textReader fp mkPlain) cols ps xs ∧ xs.map (List.map Spec.meaning) = rows := by
  unfold TextRows at h
  induction h with
  | nil => exact ⟨[], List.Forall₂.nil, rfl⟩
  | @cons p ds ps rows hp _ ih =>
    obtain ⟨xs, h1, h2⟩ := ih
    obtain ⟨vs, h3, h4⟩ := C10_row_decodes fp cols ds p [] hp
    rw [List.append_nil] at h3
    refine ⟨vs :: xs, List.Forall₂.cons ⟨isRow_text hp (by simpa using hne), vs, h3, ?_⟩ h1, ?_⟩
    · exact mkPlain_of h4 (by rw [textRow_length hp, List.length_map])
    · rw [List.map_cons, h4, h2]

theorem rowsAs_bin {cols : List Column} {rows : List (List Spec.Datum)}
    {ps : List Bytes} (h : BinRows cols rows ps) :
    ∃ xs, RowsAs (binReader mkPlain) cols ps xs ∧ xs.map (List.map Spec.meaning) = rows := by
  unfold BinRows at h
  induction h with
  | nil => exact ⟨[], List.Forall₂.nil, rfl⟩
  | @cons p ds ps rows hp _ ih =>
    obtain ⟨xs, h1, h2⟩ := ih
    obtain ⟨vs, h3, h4⟩ := C09_row_decodes cols p [] ds hp
    refine ⟨vs :: xs, List.Forall₂.cons ⟨isRow_bin hp, vs, h3, ?_⟩ h1, ?_⟩
    · refine mkPlain_of h4 ?_
      unfold Spec.readRow at hp
      obtain ⟨⟨hd, bs⟩, g1, g2⟩ := option_bind_some hp
      dsimp only at g2
      split at g2
      · cases g2
      · simp only [Option.bind_eq_bind] at g2
        obtain ⟨⟨bm, bs'⟩, g3, g4⟩ := option_bind_some g2
        dsimp only at g4
        rw [(C09_null_bits bm _ 0 bs' [] ds g4).1, List.length_map]
    · rw [List.map_cons, h4, h2]

/-- calling `next` `k` times: the answers in order. -/
def RSet.nextN {R : Type} (rd : RowReader R) : Nat → RSet → M (RSet × List (Option R))
  | 0, rs => pure (rs, [])
  | k + 1, rs => do
    let (rs', x) ← rs.next rd
    let (rs'', xs) ← RSet.nextN rd k rs'
    pure (rs'', x :: xs)

theorem nextN_done {R : Type} (rd : RowReader R) (k : Nat) (rs : RSet) (c : Conn)
    (h : rs.okPacket ≠ none) : rs.nextN rd k c = (.ok (rs, List.replicate k none), c) := by
  induction k with
  | zero => rfl
  | succ k ih =>
    unfold RSet.nextN
    rw [SM.bind_of_ok (next_done rd rs c h)]
    dsimp only
    rw [SM.bind_of_ok ih]
    rfl

theorem nextN_rows {R : Type} (rd : RowReader R) (rs : RSet) (c : Conn) (s : UInt8)
    (ps qs : List Bytes) (xs : List R) (r : List Rx) (k : Nat) (hk : k ≤ ps.length)
    (hrs : rs.okPacket = none) (h : RowsAs rd rs.columns ps xs) :
    rs.nextN rd k (c.feed s (ps ++ qs) r)
      = (.ok (rs, (xs.take k).map some), c.feed (Spec.seqAfter s (ps.take k)) (ps.drop k ++ qs) r) := by
  unfold RowsAs at h
  induction h generalizing s k with
  | nil =>
    have : k = 0 := by simpa using hk
    subst this; rfl
  | @cons p x ps xs hp _ ih =>
    cases k with
    | zero => rfl
    | succ k =>
      obtain ⟨h1, vs, h2, h3⟩ := hp
      unfold RSet.nextN
      rw [List.cons_append, SM.bind_of_ok (next_row rd rs c s p _ r hrs h1 h2 h3)]
      dsimp only
      rw [SM.bind_of_ok (ih _ k (by simpa using hk))]
      rfl

/-- Asking `k` times for the next row of a result set whose rows decode to `xs`: the first rows in
order, each once; after the last one the answer is "no more rows", as often as asked, and the
connection is not touched any more. -/
theorem C12_next {R : Type} (rd : RowReader R) (rs : RSet) (c : Conn) (ps qs : List Bytes)
    (xs : List R) (status warnings : Nat) (r : List Rx) (k : Nat) (hrs : rs.okPacket = none)
    (h : RowsAs rd rs.columns ps xs)
    (hc : c.rx = rxOf (Spec.framesAll c.seqId (ps ++ Spec.terminator status warnings :: qs)) ++ r) :
    if k ≤ ps.length then
      rs.nextN rd k c = (.ok (rs, (xs.take k).map some),
        { c with rx := rxOf (Spec.framesAll (Spec.seqAfter c.seqId (ps.take k))
                    (ps.drop k ++ Spec.terminator status warnings :: qs)) ++ r,
                 seqId := Spec.seqAfter c.seqId (ps.take k) })
    else ∃ ok,
      rs.nextN rd k c = (.ok ({ rs with okPacket := some ok },
          xs.map some ++ List.replicate (k - ps.length) none),
        { c with rx := rxOf (Spec.framesAll (Spec.seqAfter c.seqId ps + 1) qs) ++ r,
                 seqId := Spec.seqAfter c.seqId ps + 1, pendingResult := false }) := by
  have hc' := Conn.feed_of rfl hc
  generalize c.seqId = s at hc' hc
  rw [hc']
  split
  · rename_i hk
    exact nextN_rows rd rs c s ps _ xs r k hk hrs h
  · rename_i hk
    refine ⟨eofSeen status warnings, ?_⟩
    have key : ∀ (j : Nat) (s : UInt8),
        rs.nextN rd (ps.length + (j + 1)) (c.feed s (ps ++ Spec.terminator status warnings :: qs) r)
        = (.ok ({ rs with okPacket := some (eofSeen status warnings) },
            xs.map some ++ List.replicate (j + 1) none),
           { c.feed (Spec.seqAfter s ps + 1) qs r with pendingResult := false }) := by
      intro j
      unfold RowsAs at h
      clear hk hc hc'
      induction h with
      | nil =>
        intro s
        rw [List.length_nil, Nat.zero_add]
        unfold RSet.nextN
        rw [List.nil_append, SM.bind_of_ok (next_term rd rs c s status warnings qs r hrs)]
        dsimp only
        rw [SM.bind_of_ok (nextN_done rd j _ _ (by simp))]
        rfl
      | @cons p x ps xs hp _ ih =>
        intro s
        obtain ⟨h1, vs, h2, h3⟩ := hp
        rw [List.length_cons, show ps.length + 1 + (j + 1) = (ps.length + (j + 1)) + 1 by omega]
        unfold RSet.nextN
        rw [List.cons_append, SM.bind_of_ok (next_row rd rs c s p _ r hrs h1 h2 h3)]
        dsimp only
        rw [SM.bind_of_ok (ih _)]
        rfl
    have e : k = ps.length + ((k - ps.length - 1) + 1) := by omega
    have e2 : k - ps.length = (k - ps.length - 1) + 1 := by omega
    rw [e2, e]
    have := key (k - ps.length - 1) s
    rw [show ps.length + (k - ps.length - 1 + 1) - ps.length - 1 = k - ps.length - 1 by omega]
    exact this

/-- After the end, `next` and `collect` report no rows and leave the connection alone. -/
theorem C12_after_the_end {R : Type} (rd : RowReader R) (rs : RSet) (c : Conn)
    (h : rs.okPacket ≠ none) :
    rs.next rd c = (.ok (rs, none), c) ∧ rs.collect rd c = (.ok (rs, []), c) := by
  refine ⟨next_done rd rs c h, ?_⟩
  unfold RSet.collect RSet.collectLoop
  rw [SM.bind_of_ok (next_done rd rs c h)]
  rfl

/-- `collect` returns all rows in order and leaves the connection just behind the result. -/
theorem C12_collect {R : Type} (rd : RowReader R) (rs : RSet) (c : Conn) (ps qs : List Bytes)
    (xs : List R) (status warnings : Nat) (r : List Rx) (hrs : rs.okPacket = none)
    (h : RowsAs rd rs.columns ps xs)
    (hc : c.rx = rxOf (Spec.framesAll c.seqId (ps ++ Spec.terminator status warnings :: qs)) ++ r) :
    ∃ ok, rs.collect rd c = (.ok ({ rs with okPacket := some ok }, xs),
      { c with rx := rxOf (Spec.framesAll (Spec.seqAfter c.seqId ps + 1) qs) ++ r,
               seqId := Spec.seqAfter c.seqId ps + 1, pendingResult := false }) := by
  have hc' := Conn.feed_of rfl hc
  have := collect_rows rd rs c c.seqId ps qs xs status warnings r hrs h
  rw [← hc'] at this
  exact ⟨_, this⟩

/-- `one` returns the first row, if there is one, and consumes the rest. -/
theorem C12_one {R : Type} (rd : RowReader R) (rs : RSet) (c : Conn) (ps qs : List Bytes)
    (xs : List R) (status warnings : Nat) (r : List Rx) (hrs : rs.okPacket = none)
    (h : RowsAs rd rs.columns ps xs)
    (hc : c.rx = rxOf (Spec.framesAll c.seqId (ps ++ Spec.terminator status warnings :: qs)) ++ r) :
    ∃ ok, rs.one rd c = (.ok ({ rs with okPacket := some ok }, xs.head?),
      { c with rx := rxOf (Spec.framesAll (Spec.seqAfter c.seqId ps + 1) qs) ++ r,
               seqId := Spec.seqAfter c.seqId ps + 1, pendingResult := false }) := by
  have hc' := Conn.feed_of rfl hc
  generalize hs : c.seqId = s at hc'
  rw [hc']
  refine ⟨eofSeen status warnings, ?_⟩
  unfold RowsAs at h
  unfold RSet.one
  cases h with
  | nil =>
    have h1 : SM.attempt (rs.next rd) (c.feed s (Spec.terminator status warnings :: qs) r)
        = (.ok (.ok ({ rs with okPacket := some (eofSeen status warnings) }, none)),
           { c.feed (s + 1) qs r with pendingResult := false }) := by
      unfold SM.attempt
      rw [next_term rd rs c s status warnings qs r hrs]
    rw [List.nil_append, SM.bind_of_ok h1]
    dsimp only
    unfold RSet.drain
    have h2 := (C12_after_the_end rd { rs with okPacket := some (eofSeen status warnings) }
      { c.feed (s + 1) qs r with pendingResult := false } (by simp)).2
    rw [SM.bind_apply, SM.bind_of_ok h2]
    rfl
  | @cons p x ps xs hp ht =>
    obtain ⟨g1, vs, g2, g3⟩ := hp
    have h1 : SM.attempt (rs.next rd)
        (c.feed s (p :: (ps ++ Spec.terminator status warnings :: qs)) r)
        = (.ok (.ok (rs, some x)), c.feed (s + UInt8.ofNat (Spec.frameCount p))
            (ps ++ Spec.terminator status warnings :: qs) r) := by
      unfold SM.attempt
      rw [next_row rd rs c s p _ r hrs g1 g2 g3]
    rw [List.cons_append, SM.bind_of_ok h1]
    dsimp only
    unfold RSet.drain
    rw [SM.bind_apply, SM.bind_of_ok (collect_rows rd rs c _ ps qs xs status warnings r hrs ht)]
    rfl

/-- From the query text to the rows (text protocol): on a connection without pending rows, if the
server answers `sql` with a result set, the caller learns the columns, and collecting gives exactly
the rows the server sent.  Afterwards the connection is at the first byte after the result. -/
theorem C12_query_collect (fp : FloatParse) (sql : Str) (c : Conn) (descs : List Spec.ColDesc)
    (cols : List Column) (rows : List (List Spec.Datum)) (ps : List Bytes) (status warnings : Nat)
    (r : List Rx) (hp : c.pendingResult = false) (hw : c.wfaults = [])
    (hd : DescsAs descs cols) (h0 : descs ≠ []) (hl : descs.length < 2 ^ 56)
    (hrows : TextRows fp cols rows ps)
    (hrx : c.rx = rxOf (Spec.framesAll (UInt8.ofNat (Spec.frameCount (0x03 :: utf8 sql)))
      (Spec.resultSet descs ps status warnings)) ++ r) :
    ∃ c1 xs c2 ok,
      query sql c = (.ok { columns := cols, okPacket := none }, c1) ∧
      RSet.collect (textReader fp mkPlain) { columns := cols, okPacket := none } c1
        = (.ok ({ columns := cols, okPacket := some ok }, xs), c2) ∧
      xs.map (List.map Spec.meaning) = rows ∧
      c2 = { c with rx := r, tx := c.tx ++ Spec.frames 0 (0x03 :: utf8 sql),
                    seqId := c2.seqId, pendingResult := false } := by
  have hcols : cols ≠ [] := by
    rintro rfl
    cases hd; exact h0 rfl
  obtain ⟨xs, h1, h2⟩ := rowsAs_text hrows hcols
  unfold query
  rw [SM.bind_of_ok (executeCommand_clean .query (utf8 sql) c hp hw)]
  have e : Command.query.toByte = 0x03 := rfl
  rw [e]
  generalize hs : UInt8.ofNat (Spec.frameCount (0x03 :: utf8 sql)) = s at hrx
  have e2 : ({ c with tx := c.tx ++ Spec.frames 0 (0x03 :: utf8 sql), seqId := s } : Conn)
      = Conn.feed { c with tx := c.tx ++ Spec.frames 0 (0x03 :: utf8 sql) } s
          (headPackets descs ++ (ps ++ [Spec.terminator status warnings])) r := by
    simp only [Conn.feed, hrx, Spec.resultSet, headPackets]
    simp
  rw [e2]
  have k1 := read_head descs cols { c with tx := c.tx ++ Spec.frames 0 (0x03 :: utf8 sql) } s
    (ps ++ [Spec.terminator status warnings]) r hd h0 hl
  have k2 := collect_rows (textReader fp mkPlain) { columns := cols, okPacket := none }
    { c with tx := c.tx ++ Spec.frames 0 (0x03 :: utf8 sql), pendingResult := true }
    (Spec.seqAfter s (headPackets descs)) ps [] xs status warnings r rfl h1
  exact ⟨_, xs, _, _, k1, k2, h2, rfl⟩

/-- The same for a prepared statement (binary protocol), with any parameters. -/
theorem C12_statement_collect (p : Prepared) (values : List Value) (c : Conn)
    (descs : List Spec.ColDesc) (cols : List Column) (rows : List (List Spec.Datum))
    (ps : List Bytes) (status warnings : Nat) (r : List Rx) (req : ExecRequest)
    (hp : c.pendingResult = false) (hw : c.wfaults = []) (hn : values.length = p.params)
    (hd : DescsAs descs cols) (h0 : descs ≠ []) (hl : descs.length < 2 ^ 56)
    (hrows : BinRows cols rows ps)
    (hreq : ExecRequest.new (ε := Error) p.id values = .ok req)
    (hrx : c.rx = rxOf (Spec.framesAll (UInt8.ofNat (Spec.frameCount req.serialize))
      (Spec.resultSet descs ps status warnings)) ++ r) :
    ∃ c1 xs c2 ok,
      p.query values c = (.ok { columns := cols, okPacket := none }, c1) ∧
      RSet.collect (binReader mkPlain) { columns := cols, okPacket := none } c1
        = (.ok ({ columns := cols, okPacket := some ok }, xs), c2) ∧
      xs.map (List.map Spec.meaning) = rows ∧
      c2 = { c with rx := r, tx := c2.tx, seqId := c2.seqId, pendingResult := false } := by
  obtain ⟨xs, h1, h2⟩ := rowsAs_bin hrows
  obtain ⟨req', h3, h4⟩ := sendExecute_clean p.id values c hp hw
  rw [hreq] at h3
  injection h3 with h3
  subst h3
  unfold Prepared.query
  rw [if_neg (by simp [hn]), SM.bind_of_ok h4]
  generalize hs : UInt8.ofNat (Spec.frameCount req.serialize) = s at hrx
  have e2 : ({ c with tx := c.tx ++ Spec.commands (execCmds p.id values req), seqId := s } : Conn)
      = Conn.feed { c with tx := c.tx ++ Spec.commands (execCmds p.id values req) } s
          (headPackets descs ++ (ps ++ [Spec.terminator status warnings])) r := by
    simp only [Conn.feed, hrx, Spec.resultSet, headPackets]
    simp
  rw [e2]
  have k1 := read_head descs cols { c with tx := c.tx ++ Spec.commands (execCmds p.id values req) } s
    (ps ++ [Spec.terminator status warnings]) r hd h0 hl
  have k2 := collect_rows (binReader mkPlain) { columns := cols, okPacket := none }
    { c with tx := c.tx ++ Spec.commands (execCmds p.id values req), pendingResult := true }
    (Spec.seqAfter s (headPackets descs)) ps [] xs status warnings r rfl h1
  exact ⟨_, xs, _, _, k1, k2, h2, rfl⟩

-- `select n from t` with the rows 7 and NULL, followed by an unrelated byte
example :
    let rx : Bytes := [1, 0, 0, 1, 1] ++
      [26, 0, 0, 2, 3, 100, 101, 102, 0, 1, 116, 1, 116, 1, 110, 1, 110, 12, 63, 0, 11, 0, 0, 0, 3, 0, 0, 0, 0, 0]
        ++ [2, 0, 0, 3, 1, 55] ++ [1, 0, 0, 4, 251] ++ [7, 0, 0, 5, 254, 0, 0, 2, 0, 0, 0] ++ [9]
    let col : Column := { orgName := ['n'], name := ['n'], orgTable := ['t'], table := ['t'],
                          type := .long, flags := 0 }
    (match RSet.read (exConn rx) with
      | (.ok rs, c) =>
        match rs.collect (textReader { f32 := fun _ => none, f64 := fun _ => none } mkPlain) c with
        | (.ok (_, rows), c') => some (rs.columns, rows, c'.rx, c'.pendingResult)
        | _ => none
      | _ => none)
    = some ([col], [[.int 7], [.null]], [.byte 9], false) := by decide +kernel

end Verif

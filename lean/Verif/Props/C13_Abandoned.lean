import Verif.Props.C12_Iteration

/-! # C13 — an abandoned result set does not corrupt the next command -/

namespace Verif

theorem rowsAs_isRow {R : Type} {rd : RowReader R} {cols : List Column} {ps : List Bytes}
    {xs : List R} (h : RowsAs rd cols ps xs) : ∀ p ∈ ps, Spec.IsRow p := by
  unfold RowsAs at h
  induction h with
  | nil => intro p hp; cases hp
  | cons hq _ ih =>
    intro p hp
    rcases List.mem_cons.mp hp with rfl | hp
    · exact hq.1
    · exact ih p hp

/-- After reading any number `k` of rows and dropping the result set, starting the next command
(a query, a prepare, …, or any already serialized request) does exactly what it does after the
result had been read completely: the remaining rows are gone, the command is sent, and the stream
is at the first byte the server sent after the old result. -/
theorem C13_command_after_abandoning {R : Type} (rd : RowReader R) (rs : RSet) (c : Conn)
    (ps : List Bytes) (xs : List R) (status warnings : Nat) (r : List Rx) (k : Nat)
    (hk : k ≤ ps.length) (hrs : rs.okPacket = none) (h : RowsAs rd rs.columns ps xs)
    (hpend : c.pendingResult = true) (hw : c.wfaults = [])
    (hc : c.rx = rxOf (Spec.framesAll c.seqId (ps ++ [Spec.terminator status warnings])) ++ r)
    (cmd : Command) (data req : Bytes) :
    ∃ c1, rs.nextN rd k c = (.ok (rs, (xs.take k).map some), c1) ∧
      executeCommand cmd data c1 = (.ok (), { c with
        rx := r, tx := c.tx ++ Spec.frames 0 (cmd.toByte :: data),
        seqId := UInt8.ofNat (Spec.frameCount (cmd.toByte :: data)), pendingResult := false }) ∧
      writeCommand req c1 = (.ok (), { c with
        rx := r, tx := c.tx ++ Spec.frames 0 req,
        seqId := UInt8.ofNat (Spec.frameCount req), pendingResult := false }) := by
  have h1 := C12_next rd rs c ps [] xs status warnings r k hrs h hc
  rw [if_pos hk] at h1
  refine ⟨_, h1, ?_, ?_⟩
  · unfold executeCommand
    have hrow : ∀ p ∈ ps.drop k, Spec.IsRow p := fun p hp =>
      rowsAs_isRow h p (List.mem_of_mem_drop hp)
    have h2 := cleanup_rows c (Spec.seqAfter c.seqId (ps.take k)) (ps.drop k) [] status warnings r
      hrow hpend
    rw [SM.bind_of_ok h2, SM.modify_bind_apply, writePacket_ok _ _ (by simpa using hw)]
    simp [Spec.framesAll]
  · unfold writeCommand
    have hrow : ∀ p ∈ ps.drop k, Spec.IsRow p := fun p hp =>
      rowsAs_isRow h p (List.mem_of_mem_drop hp)
    have h2 := cleanup_rows c (Spec.seqAfter c.seqId (ps.take k)) (ps.drop k) [] status warnings r
      hrow hpend
    rw [SM.bind_of_ok h2, SM.modify_bind_apply, writePacket_ok _ _ (by simpa using hw)]
    simp [Spec.framesAll]

/-- End to end: query, read `k` rows, drop, then execute another query: the second query gets the
server's answer to the second query, and the bytes sent are exactly the two commands. -/
theorem C13_second_query (fp : FloatParse) (sql1 sql2 : Str) (c : Conn) (descs : List Spec.ColDesc)
    (cols : List Column) (rows : List (List Spec.Datum)) (ps : List Bytes) (status warnings : Nat)
    (a l : UInt64) (status2 warnings2 : UInt16) (msg : Str) (k : Nat) (hk : k ≤ ps.length)
    (r : List Rx) (hp : c.pendingResult = false) (hw : c.wfaults = [])
    (hst : hasFlag32 c.data.capabilities Cap.SESSION_TRACK = false)
    (hm : (utf8 msg).length < 2 ^ 64)
    (hd : DescsAs descs cols) (h0 : descs ≠ []) (hl : descs.length < 2 ^ 56)
    (hrows : TextRows fp cols rows ps)
    (hrx : c.rx = rxOf (Spec.framesAll (UInt8.ofNat (Spec.frameCount (0x03 :: utf8 sql1)))
        (Spec.resultSet descs ps status warnings)) ++
      (rxOf (Spec.frames (UInt8.ofNat (Spec.frameCount (0x03 :: utf8 sql2)))
        (Spec.okPacket a.toNat l.toNat status2.toNat warnings2.toNat msg)) ++ r)) :
    ∃ c1 c2 xs c3,
      query sql1 c = (.ok { columns := cols, okPacket := none }, c1) ∧
      RSet.nextN (textReader fp mkPlain) k { columns := cols, okPacket := none } c1
        = (.ok ({ columns := cols, okPacket := none }, xs), c2) ∧
      xs.map (Option.map (List.map Spec.meaning)) = (rows.take k).map some ∧
      executeQuery sql2 c2 = (.ok (okOf a l status2 warnings2 msg), c3) ∧
      c3 = { c with rx := r, seqId := c3.seqId,
                    tx := c.tx ++ Spec.frames 0 (0x03 :: utf8 sql1)
                            ++ Spec.frames 0 (0x03 :: utf8 sql2) } := by
  have hcols : cols ≠ [] := by
    rintro rfl
    cases hd; exact h0 rfl
  obtain ⟨xs, g1, g2⟩ := rowsAs_text hrows hcols
  generalize hr2 : (rxOf (Spec.frames (UInt8.ofNat (Spec.frameCount (0x03 :: utf8 sql2)))
        (Spec.okPacket a.toNat l.toNat status2.toNat warnings2.toNat msg)) ++ r) = r2 at hrx
  have e : Command.query.toByte = 0x03 := rfl
  -- the first query
  have k1 : query sql1 c = (.ok { columns := cols, okPacket := none },
      { c with
        rx := rxOf (Spec.framesAll (Spec.seqAfter
          (UInt8.ofNat (Spec.frameCount (0x03 :: utf8 sql1))) (headPackets descs))
            (ps ++ [Spec.terminator status warnings])) ++ r2,
        seqId := Spec.seqAfter (UInt8.ofNat (Spec.frameCount (0x03 :: utf8 sql1))) (headPackets descs),
        tx := c.tx ++ Spec.frames 0 (0x03 :: utf8 sql1), pendingResult := true }) := by
    unfold query
    rw [SM.bind_of_ok (executeCommand_clean .query (utf8 sql1) c hp hw), e]
    generalize UInt8.ofNat (Spec.frameCount (0x03 :: utf8 sql1)) = s at hrx
    have := read_head descs cols { c with tx := c.tx ++ Spec.frames 0 (0x03 :: utf8 sql1) } s
      (ps ++ [Spec.terminator status warnings]) r2 hd h0 hl
    rw [← this]
    congr 1
    simp only [Conn.feed, hrx, Spec.resultSet, headPackets]
    simp
  obtain ⟨c2, k2, k3, -⟩ := C13_command_after_abandoning (textReader fp mkPlain)
    { columns := cols, okPacket := none } _ ps xs status warnings r2 k hk rfl g1
    (show ({ c with
        rx := rxOf (Spec.framesAll (Spec.seqAfter
          (UInt8.ofNat (Spec.frameCount (0x03 :: utf8 sql1))) (headPackets descs))
            (ps ++ [Spec.terminator status warnings])) ++ r2,
        seqId := Spec.seqAfter (UInt8.ofNat (Spec.frameCount (0x03 :: utf8 sql1))) (headPackets descs),
        tx := c.tx ++ Spec.frames 0 (0x03 :: utf8 sql1), pendingResult := true } : Conn).pendingResult
        = true from rfl) hw rfl .query (utf8 sql2) []
  have k4 : ∃ q, executeQuery sql2 c2 = (.ok (okOf a l status2 warnings2 msg),
      { c with
        rx := r,
        tx := c.tx ++ Spec.frames 0 (0x03 :: utf8 sql1) ++ Spec.frames 0 (0x03 :: utf8 sql2),
        seqId := q, pendingResult := false }) := by
    unfold executeQuery
    rw [SM.bind_of_ok k3, e]
    obtain ⟨q, h1⟩ := readResponse_ok { c with
        rx := r2
        tx := c.tx ++ Spec.frames 0 (0x03 :: utf8 sql1) ++ Spec.frames 0 (0x03 :: utf8 sql2)
        seqId := UInt8.ofNat (Spec.frameCount (0x03 :: utf8 sql2))
        pendingResult := false } r a l status2 warnings2 msg hm (Or.inl hst) hr2.symm
    rw [SM.bind_of_ok h1]
    exact ⟨q, rfl⟩
  obtain ⟨q, k4⟩ := k4
  refine ⟨_, c2, _, _, k1, k2, ?_, k4, ?_⟩
  · rw [← g2, ← List.map_take, List.map_map, List.map_map]; rfl
  · rw [hp]

-- one of two rows is read, then a second query
example :
    let rx : Bytes := [1, 0, 0, 1, 1] ++
      [26, 0, 0, 2, 3, 100, 101, 102, 0, 1, 116, 1, 116, 1, 110, 1, 110, 12, 63, 0, 11, 0, 0, 0, 3, 0, 0, 0, 0, 0]
        ++ [2, 0, 0, 3, 1, 55] ++ [1, 0, 0, 4, 251] ++ [7, 0, 0, 5, 254, 0, 0, 2, 0, 0, 0] ++
      [7, 0, 0, 1, 0, 3, 0, 2, 0, 0, 0] ++ [9]
    let rd := textReader { f32 := fun _ => none, f64 := fun _ => none } mkPlain
    (match query "select n from t".toList (exConn rx) with
      | (.ok rs, c) =>
        match rs.nextN rd 1 c with
        | (.ok (_, xs), c) =>
          match executeQuery "delete from t".toList c with
          | (.ok ok, c) => some (xs, ok.affectedRows, c.rx, c.tx)
          | _ => none
        | _ => none
      | _ => none)
    = some ([some [.int 7]], 3, [.byte 9],
        [16, 0, 0, 0, 3] ++ utf8 "select n from t".toList ++ [14, 0, 0, 0, 3] ++ utf8 "delete from t".toList) := by
  decide +kernel

end Verif

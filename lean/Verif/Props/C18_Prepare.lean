import Verif.Props.C12_Iteration

/-! # C18 — preparing a statement consumes exactly the server's answer -/

namespace Verif

theorem skipPackets_spec (ps : List Bytes) (c : Conn) (s : UInt8) (qs : List Bytes) (r : List Rx) :
    skipPackets ps.length (c.feed s (ps ++ qs) r) = (.ok (), c.feed (Spec.seqAfter s ps) qs r) := by
  induction ps generalizing s with
  | nil => rfl
  | cons p ps ih =>
    rw [List.length_cons, skipPackets, List.cons_append, SM.bind_of_ok (readPacket_feed c s _ _ r), ih]
    rfl

/-- The statement text is sent verbatim; the id and the number of parameters are the server's; the
`params + columns` definition packets, whatever they contain, are consumed and nothing more. -/
theorem C18_prepare (sql : Str) (c : Conn) (id : UInt32) (columns params warnings : UInt16)
    (defs : List Bytes) (r : List Rx) (hp : c.pendingResult = false) (hw : c.wfaults = [])
    (hd : defs.length = params.toNat + columns.toNat)
    (h : c.rx = rxOf (Spec.framesAll (UInt8.ofNat (Spec.frameCount (0x16 :: utf8 sql)))
      (Spec.stmtOk id.toNat columns.toNat params.toNat warnings.toNat :: defs)) ++ r) :
    ∃ q, prepareStatement sql c = (.ok { id := id, params := params.toNat }, { c with
      rx := r, tx := c.tx ++ Spec.frames 0 (0x16 :: utf8 sql), seqId := q }) := by
  unfold prepareStatement
  rw [SM.bind_of_ok (executeCommand_clean .stmtPrepare (utf8 sql) c hp hw)]
  have e : Command.stmtPrepare.toByte = 0x16 := rfl
  rw [e]
  generalize UInt8.ofNat (Spec.frameCount (0x16 :: utf8 sql)) = s at h
  have h1 := readPacket_feed { c with tx := c.tx ++ Spec.frames 0 (0x16 :: utf8 sql) } s
    (Spec.stmtOk id.toNat columns.toNat params.toNat warnings.toNat) defs r
  rw [Conn.feed, ← h] at h1
  rw [SM.bind_of_ok h1, SM.get_bind_apply]
  have h2 := stmt_spec id columns params warnings []
  rw [List.append_nil] at h2
  obtain ⟨t, et⟩ : ∃ t, Spec.stmtOk id.toNat columns.toNat params.toNat warnings.toNat = 0 :: t :=
    ⟨_, rfl⟩
  rw [et] at h2 ⊢
  dsimp only
  rw [if_pos rfl, h2]
  unfold liftP
  rw [Out.mapErr_ok, SM.ofOut_ok_bind_apply]
  dsimp only
  have h3 := skipPackets_spec defs { c with tx := c.tx ++ Spec.frames 0 (0x16 :: utf8 sql) }
    (s + UInt8.ofNat (Spec.frameCount (0 :: t))) [] r
  rw [List.append_nil, hd] at h3
  rw [SM.bind_of_ok h3]
  exact ⟨_, rfl⟩

/-- What the prepared statement knows about its parameters fits sixteen bits, so parameter indices
never wrap (used by C06 and C17). -/
theorem C18_param_count_bound (sql : Str) (c c' : Conn) (p : Prepared)
    (h : prepareStatement sql c = (.ok p, c')) : p.params < 2 ^ 16 := by
  unfold prepareStatement at h
  obtain ⟨_, c1, -, h⟩ := SM.bind_eq_ok.1 h
  obtain ⟨packet, c2, -, h⟩ := SM.bind_eq_ok.1 h
  obtain ⟨_, _, -, h⟩ := SM.bind_eq_ok.1 h
  split at h
  · split at h
    · obtain ⟨stmt, c3, -, h⟩ := SM.bind_eq_ok.1 h
      obtain ⟨_, c4, -, h⟩ := SM.bind_eq_ok.1 h
      simp only [SM.pure_apply, Prod.mk.injEq, Out.ok.injEq] at h
      rw [← h.1]
      exact stmt.paramsLen.toNat_lt
    · split at h
      · obtain ⟨e, c3, -, h⟩ := SM.bind_eq_ok.1 h
        simp at h
      · simp at h
  · simp at h

-- id 7, one column, two parameters
example : runP Stmt.deserialize [0, 7, 0, 0, 0, 1, 0, 2, 0, 0, 3, 0]
    = .ok { id := 7, columnsLen := 1, paramsLen := 2, warningCount := 3 } := by decide +kernel

-- two parameters and one column, their definitions skipped
example :
    let rx : Bytes := [12, 0, 0, 1, 0, 7, 0, 0, 0, 1, 0, 2, 0, 0, 3, 0] ++
      [2, 0, 0, 2, 1, 1] ++ [1, 0, 0, 3, 9] ++ [3, 0, 0, 4, 5, 6, 7] ++ [9]
    (prepareStatement "select ?+?".toList (exConn rx)).1 = .ok { id := 7, params := 2 } ∧
    (prepareStatement "select ?+?".toList (exConn rx)).2.rx = [.byte 9] := by decide +kernel

end Verif

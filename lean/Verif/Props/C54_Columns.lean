import Verif.Props.C12_Iteration

/-! # C54 — column metadata is decoded exactly -/

namespace Verif

/-- Every column description whose five names are shorter than 251 bytes (of UTF-8) is decoded to
exactly its names, type and flags: all types, all sixteen flag bits, all names.
Missing: longer names (`C54_long_name_violated`). -/
theorem C54_column_partial (d : Spec.ColDesc) (t : ColumnType) (rest : Bytes)
    (hdb : (utf8 d.db).length < 251) (htab : (utf8 d.table).length < 251)
    (hot : (utf8 d.orgTable).length < 251) (hname : (utf8 d.name).length < 251)
    (hon : (utf8 d.orgName).length < 251)
    (ht : d.code = t.toByte.toNat) (hf : d.flags < 2 ^ 16) (hc : d.charset < 2 ^ 16)
    (hl : d.length < 2 ^ 32) :
    ∃ cd, runP ColumnDef.deserialize (Spec.colDef d ++ rest) = .ok cd ∧
      let col := Column.ofDef cd
      col.table = d.table ∧ col.orgTable = d.orgTable ∧ col.name = d.name ∧
      col.orgName = d.orgName ∧ col.type.toByte.toNat = d.code ∧ col.flags.toNat = d.flags := by
  refine ⟨_, colDef_spec d t rest ⟨hdb, htab, hot, hname, hon⟩ ht hf hc hl, rfl, rfl, rfl, rfl, ?_, ?_⟩
  · exact ht.symm
  · exact uint16_toNat_ofNat_of_lt hf

/-- The columns of a result set as the caller sees them, in order and complete. -/
theorem C54_result_columns_partial (descs : List Spec.ColDesc) (cols : List Column) (c : Conn)
    (ps : List Bytes) (r : List Rx) (h : DescsAs descs cols) (h0 : descs ≠ [])
    (hl : descs.length < 2 ^ 56)
    (hc : c.rx = rxOf (Spec.framesAll c.seqId
      (Spec.lenenc descs.length :: descs.map Spec.colDef ++ ps)) ++ r) :
    ∃ c', RSet.read c = (.ok { columns := cols, okPacket := none }, c') := by
  have hc' := Conn.feed_of rfl hc
  have := read_head descs cols c c.seqId ps r h h0 hl
  unfold headPackets at this
  rw [← hc'] at this
  exact ⟨_, this⟩

/-- Every type code the connector knows denotes one type: decoding it and taking its code gives it
back; a code it does not know is refused. -/
theorem C54_type_codes (b : UInt8) :
    (∀ t, ColumnType.ofByte b = .ok t → t.toByte = b) ∧
    (∀ t : ColumnType, ColumnType.ofByte t.toByte = .ok t) := by
  refine ⟨?_, ofByte_toByte⟩
  have h : ∀ n < 256, ∀ t, ColumnType.ofByte (UInt8.ofNat n) = .ok t → t.toByte = UInt8.ofNat n := by
    intro n hn
    have h2 : ∀ n < 256, (match ColumnType.ofByte (UInt8.ofNat n) with
        | .ok t => decide (t.toByte = UInt8.ofNat n)
        | _ => true) = true := by decide +kernel
    have := h2 n hn
    intro t ht
    rw [ht] at this
    simpa using this
  have := h b.toNat b.toNat_lt
  rwa [UInt8.ofNat_toNat] at this

/-- A column alias of 251 characters makes the packet undecodable. -/
theorem C54_long_name_violated :
    let d : Spec.ColDesc := {
      db := []
      table := []
      orgTable := []
      name := List.replicate 251 'a'
      orgName := []
      charset := 33
      length := 1
      code := 3
      flags := 0
      decimals := 0 }
    runP ColumnDef.deserialize (Spec.colDef d) = .err (.parse .utf8) := by decide +kernel

-- a 250 byte name of two-byte characters
example :
    let d : Spec.ColDesc := {
      db := ['d']
      table := ['t']
      orgTable := ['u']
      name := List.replicate 125 'é'
      orgName := ['n']
      charset := 33
      length := 1
      code := 253
      flags := 0x1001
      decimals := 0 }
    (match runP ColumnDef.deserialize (Spec.colDef d) with
      | .ok cd => some (Column.ofDef cd).name
      | _ => none) = some (List.replicate 125 'é') := by decide +kernel

end Verif

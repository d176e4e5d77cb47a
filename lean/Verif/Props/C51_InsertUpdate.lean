import Verif.Proofs.Active
import Verif.Props.C17_ParamCount

/-! # C51 — generated insert and update statements match their values -/

namespace Verif

/-- The insert statement as the server reads it: the table, the columns in order, and one placeholder
each.  Names are Rust identifiers and the text of an attribute; a backquote in them is excluded. -/
theorem C51_insert (values : List NamedValue) (table : Str) (ht : '`' ∉ table)
    (hv : ∀ v ∈ values, '`' ∉ v.1) :
    ∃ ts, Spec.tokens (intoInsert values table) = some ts ∧
      Spec.parseInsert ts = some { table := table, columns := values.map (·.1), marks := values.length } ∧
      Spec.placeholders ts = values.length :=
  insert_reads values table ht hv

/-- The update statement: the columns in order, a placeholder each, and one for the key. -/
theorem C51_update (values : List NamedValue) (table key : Str) (hne : values ≠ []) (ht : '`' ∉ table)
    (hk : '`' ∉ key) (hv : ∀ v ∈ values, '`' ∉ v.1) :
    ∃ ts, Spec.tokens (intoUpdate values table key) = some ts ∧
      Spec.parseUpdate ts = some { table := table, columns := values.map (·.1), key := key } ∧
      Spec.placeholders ts = values.length + 1 :=
  update_reads values table key hne ht hk hv

/-- A server that counts the placeholders makes executing an insert send exactly the values. -/
theorem C51_insert_sent (values : List NamedValue) (table : Str) (ht : '`' ∉ table)
    (hv : ∀ v ∈ values, '`' ∉ v.1) (p : Prepared) (c : Conn)
    (hs : ∀ ts, Spec.tokens (intoInsert values table) = some ts → p.params = Spec.placeholders ts)
    (hn : p.params < 2 ^ 16) (hp : c.pendingResult = false) (hw : c.wfaults = [])
    (hb : ∀ b, .bytes b ∈ values.map (·.2) → b.length < 2 ^ 64) :
    ∃ (long : List Bytes) (exec : Bytes) (st : Spec.LongData),
      (p.execute (values.map (·.2)) c).2.tx = c.tx ++ Spec.commands (long ++ [exec]) ∧
      Spec.longRun (fun _ _ => none) long = some st ∧
      Spec.readExecute values.length (st p.id.toNat) exec
        = some { stmtId := p.id.toNat, cursorType := 0, iterations := 1,
                 params := values.map fun v => Spec.meaning v.2 } := by
  obtain ⟨ts, h1, -, h3⟩ := insert_reads values table ht hv
  have hl : (values.map (·.2)).length = p.params := by rw [hs ts h1, h3, List.length_map]
  obtain ⟨long, exec, st, e1, -, e2, e3⟩ := C17_match_sent p (values.map (·.2)) c hl hn hp hw hb
  rw [List.length_map, List.map_map] at e3
  exact ⟨long, exec, st, e1, e2, e3⟩

/-- … and for an update, the key last. -/
theorem C51_update_sent (values : List NamedValue) (table key : Str) (id : Value) (hne : values ≠ [])
    (ht : '`' ∉ table) (hk : '`' ∉ key) (hv : ∀ v ∈ values, '`' ∉ v.1) (p : Prepared) (c : Conn)
    (hs : ∀ ts, Spec.tokens (intoUpdate values table key) = some ts → p.params = Spec.placeholders ts)
    (hn : p.params < 2 ^ 16) (hp : c.pendingResult = false) (hw : c.wfaults = [])
    (hb : ∀ b, .bytes b ∈ values.map (·.2) ++ [id] → b.length < 2 ^ 64) :
    ∃ (long : List Bytes) (exec : Bytes) (st : Spec.LongData),
      (p.execute (values.map (·.2) ++ [id]) c).2.tx = c.tx ++ Spec.commands (long ++ [exec]) ∧
      Spec.longRun (fun _ _ => none) long = some st ∧
      Spec.readExecute (values.length + 1) (st p.id.toNat) exec
        = some { stmtId := p.id.toNat, cursorType := 0, iterations := 1,
                 params := (values.map fun v => Spec.meaning v.2) ++ [Spec.meaning id] } := by
  obtain ⟨ts, h1, -, h3⟩ := update_reads values table key hne ht hk hv
  have hl : (values.map (·.2) ++ [id]).length = p.params := by
    rw [hs ts h1, h3, List.length_append, List.length_map]
    rfl
  obtain ⟨long, exec, st, e1, -, e2, e3⟩ := C17_match_sent p _ c hl hn hp hw hb
  rw [List.length_append, List.length_map, List.map_append, List.map_map] at e3
  exact ⟨long, exec, st, e1, e2, e3⟩

example : String.ofList (intoInsert [("id".toList, .null), ("na me".toList, .tiny 3)] "t".toList) =
    "insert into `t` (`id`, `na me`) values (?, ?)" := by decide +kernel

example : String.ofList (intoUpdate [("a".toList, .null), ("b".toList, .tiny 3)] "t".toList "id".toList) =
    "update `t` set `a` = ?, `b` = ? where `id` = ?" := by decide +kernel

-- a row of defaults only
example : String.ofList (intoInsert [] "t".toList) = "insert into `t` () values ()" := by decide +kernel

-- a name that would end the quotation is read as something else
example : (Spec.tokens (intoInsert [("a`, `b".toList, .null)] "t".toList)).bind Spec.parseInsert =
    some { table := "t".toList, columns := ["a".toList, "b".toList], marks := 1 } := by decide +kernel

end Verif

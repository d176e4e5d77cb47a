import Verif.Proofs.Stmt

/-! # C07 — the announced binary size of a value is its real size -/

namespace Verif

/-- Every value except the zero DATE occupies exactly the announced number of bytes. (Missing: the
zero DATE, for which the code announces 1 and writes 5, see `C07_zero_date_violated`.) -/
theorem C07_size_partial (v : Value) (hz : v ≠ .date 0 0 0)
    (hb : ∀ b, v = .bytes b → b.length < 2 ^ 64) : v.serialize.length = v.binLen :=
  length_serialize hz hb

/-- The zero DATE refutes the property. -/
theorem C07_zero_date_violated :
    ∃ v : Value, v.binLen = 1 ∧ v.serialize.length = 5 := ⟨.date 0 0 0, by decide⟩

/-- and it is the only value that does. -/
theorem C07_exact_partial (v : Value) (hb : ∀ b, v = .bytes b → b.length < 2 ^ 64) :
    v.serialize.length = v.binLen ↔ v ≠ .date 0 0 0 :=
  ⟨fun h hv => (by subst hv; exact absurd h (by decide)), fun hz => length_serialize hz hb⟩

/-- The announced size is 0 exactly for NULL, so the NULL bit is right in spite of the above. -/
theorem C07_zero_iff_null (v : Value) : v.binLen = 0 ↔ v = .null := binLen_eq_zero v

/-- The announced size is never more than the real one, and never less by more than 4. -/
theorem C07_error_bound (v : Value) (hb : ∀ b, v = .bytes b → b.length < 2 ^ 64) :
    v.binLen ≤ v.serialize.length ∧ v.serialize.length ≤ v.binLen + 4 := by
  by_cases hz : v = .date 0 0 0
  · subst hz; decide
  · rw [length_serialize hz hb]; omega

-- non-trivial instances
example (x : UInt8) : (Value.bytes (List.replicate 251 x)).serialize.length = 254 := by
  have hl : (List.replicate 251 x).length = 251 := List.length_replicate
  rw [C07_size_partial _ (by intro h; cases h) (by intro b h; cases h; rw [hl]; decide),
    Value.binLen, lenencSliceLen, hl]
  rfl
example : (Value.datetime 2024 2 29 0 0 0 1).binLen = 12 := by decide

end Verif

import Verif.Proofs.Value

/-! # C08 — NULL bitmaps are exact -/

namespace Verif

/-- run a sequence of `set(index, is_null)` calls. -/
def runSets {ε : Type} (client : Bool) : List (Nat × Bool) → Bytes → Out ε Bytes
  | [], bm => .ok bm
  | (i, v) :: ops, bm => do
    let bm ← NullBitmap.set client bm i v
    runSets client ops bm

/-- Spec: a NULL bitmap is an array of booleans; the last write to an index wins. -/
def lastWrite (ops : List (Nat × Bool)) (i : Nat) : Bool :=
  match ops.reverse.find? (fun p => p.1 == i) with
  | some p => p.2
  | none => false

theorem lastWrite_cons (i : Nat) (v : Bool) (ops : List (Nat × Bool)) (j : Nat) :
    lastWrite ((i, v) :: ops) j =
      match ops.reverse.find? (fun p => p.1 == j) with
      | some p => p.2
      | none => if i = j then v else false := by
  unfold lastWrite
  rw [List.reverse_cons, List.find?_append]
  cases h : ops.reverse.find? (fun p => p.1 == j) with
  | some p => simp
  | none =>
    by_cases hij : i = j
    · simp [hij]
    · simp [hij]

theorem runSets_spec {ε : Type} (client : Bool) (ops : List (Nat × Bool)) (bm : Bytes)
    (h : ∀ p ∈ ops, (p.1 + NullBitmap.offset client) / 8 < bm.length) :
    ∃ bm', runSets (ε := ε) client ops bm = .ok bm' ∧ bm'.length = bm.length ∧
      ∀ j, Spec.bitSet bm' j =
        if NullBitmap.offset client ≤ j then
          match ops.reverse.find? (fun p => p.1 == j - NullBitmap.offset client) with
          | some p => p.2
          | none => Spec.bitSet bm j
        else Spec.bitSet bm j := by
  induction ops generalizing bm with
  | nil => exact ⟨bm, rfl, rfl, by intro j; simp⟩
  | cons op ops ih =>
    obtain ⟨i, v⟩ := op
    obtain ⟨bm1, h1, h2, h3⟩ := NullBitmap.set_eq (ε := ε) client bm i v (h (i, v) (by simp))
    obtain ⟨bm2, h4, h5, h6⟩ := ih bm1 (by
      intro p hp; rw [h2]; exact h p (List.mem_cons_of_mem _ hp))
    refine ⟨bm2, ?_, by omega, ?_⟩
    · simp only [runSets, h1, Out.ok_bind, h4]
    · intro j
      rw [h6]
      split
      · rename_i hj
        rw [List.reverse_cons, List.find?_append]
        cases hf : ops.reverse.find? (fun p => p.1 == j - NullBitmap.offset client) with
        | some p => simp
        | none =>
          simp only [Option.none_or, List.find?_cons, List.find?_nil]
          rw [h3]
          by_cases e : i = j - NullBitmap.offset client
          · have e2 : j = i + NullBitmap.offset client := by omega
            have e3 : (i == j - NullBitmap.offset client) = true := by simpa using e
            simp only [e3, if_pos e2]
          · have e2 : ¬ j = i + NullBitmap.offset client := by omega
            have e3 : (i == j - NullBitmap.offset client) = false := by simpa using e
            simp [e2, e3]
      · rename_i hj
        rw [h3, if_neg (by omega)]

/-- For any number of columns and any sequence of in-range writes: no panic, the size is the one
the protocol prescribes, every column reads back its last write (`false` if never written), and
the bit of column `i` is bit `i + offset` of the wire bitmap (offset 0 for requests, 2 for rows)
while every other bit is zero. -/
theorem C08_bitmap (client : Bool) (n : Nat) (ops : List (Nat × Bool)) (h : ∀ p ∈ ops, p.1 < n) :
    ∃ bm, runSets (ε := Empty) client ops (NullBitmap.new client n) = .ok bm ∧
      bm.length = (if client then (n + 7) / 8 else (n + 9) / 8) ∧
      (∀ i, i < n → NullBitmap.isNull (ε := Empty) client bm i = .ok (lastWrite ops i)) ∧
      (∀ i, i < n → Spec.bitSet bm (i + if client then 0 else 2) = lastWrite ops i) ∧
      (∀ j, Spec.bitSet bm j = true → ∃ i, i < n ∧ j = i + (if client then 0 else 2)) := by
  obtain ⟨bm, h1, h2, h3⟩ := runSets_spec (ε := Empty) client ops (NullBitmap.new client n) (by
    intro p hp
    rw [NullBitmap.length_new]
    exact NullBitmap.in_range client (h p hp))
  have hoff : NullBitmap.offset client = if client then 0 else 2 := rfl
  have key : ∀ i, Spec.bitSet bm (i + NullBitmap.offset client) = lastWrite ops i := by
    intro i
    rw [h3, if_pos (by omega), Nat.add_sub_cancel, NullBitmap.bitSet_new]
    rfl
  refine ⟨bm, h1, ?_, ?_, ?_, ?_⟩
  · rw [h2, NullBitmap.length_new, NullBitmap.bitmapLen, hoff]
    cases client <;> simp
  · intro i hi
    rw [NullBitmap.isNull_eq, if_pos, key]
    rw [h2, NullBitmap.length_new]
    exact NullBitmap.in_range client hi
  · intro i hi; rw [← hoff]; exact key i
  · intro j hj
    rw [h3] at hj
    split at hj
    · rename_i hle
      split at hj
      · rename_i p hp
        have hmem := List.mem_of_find?_eq_some hp
        have heq := List.find?_some hp
        simp at hmem heq
        exact ⟨p.1, h p hmem, by rw [← hoff]; omega⟩
      · rw [NullBitmap.bitSet_new] at hj; cases hj
    · rw [NullBitmap.bitSet_new] at hj; cases hj

/-- One write changes exactly one column. -/
theorem C08_set_isolated (client : Bool) (bm : Bytes) (i : Nat) (v : Bool) (bm' : Bytes)
    (h : NullBitmap.set (ε := Empty) client bm i v = .ok bm') :
    bm'.length = bm.length ∧
    NullBitmap.isNull (ε := Empty) client bm' i = .ok v ∧
    ∀ j, j ≠ i → NullBitmap.isNull (ε := Empty) client bm' j
      = NullBitmap.isNull (ε := Empty) client bm j := by
  have hr : (i + NullBitmap.offset client) / 8 < bm.length := by
    by_cases hr : (i + NullBitmap.offset client) / 8 < bm.length
    · exact hr
    · unfold NullBitmap.set NullBitmap.byteAndBit at h
      simp only [if_neg hr] at h
      cases h
  obtain ⟨b, h1, h2, h3⟩ := NullBitmap.set_eq (ε := Empty) client bm i v hr
  rw [h] at h1
  cases h1
  refine ⟨h2, ?_, ?_⟩
  · rw [NullBitmap.isNull_eq, h2, if_pos hr, h3, if_pos rfl]
  · intro j hj
    rw [NullBitmap.isNull_eq, NullBitmap.isNull_eq, h2]
    split
    · rw [h3, if_neg (by omega)]
    · rfl

/-- Reading agrees with the protocol's definition of the bits of a received bitmap; the only
failure is an index outside the bitmap. -/
theorem C08_read_agrees (client : Bool) (bm : Bytes) (i n : Nat) (hi : i < n)
    (hl : (if client then (n + 7) / 8 else (n + 9) / 8) ≤ bm.length) :
    NullBitmap.isNull (ε := Empty) client bm i
      = .ok (Spec.bitSet bm (i + if client then 0 else 2)) := by
  rw [NullBitmap.isNull_eq, if_pos]
  · rfl
  · refine Nat.lt_of_lt_of_le (NullBitmap.in_range client hi) (Nat.le_trans ?_ hl)
    cases client <;> simp [NullBitmap.bitmapLen, NullBitmap.offset]

-- eleven columns, three NULLs
example : runSets (ε := Empty) true [(0, true), (3, true), (10, true), (3, false)]
    (NullBitmap.new true 11) = .ok [1, 4] := by decide
example : runSets (ε := Empty) false [(0, true), (5, true), (6, true)]
    (NullBitmap.new false 7) = .ok [0x84, 0x01] := by decide

end Verif

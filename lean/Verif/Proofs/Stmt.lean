import Verif.Proofs.BinValue

/-! Helper lemmas about COM_STMT_EXECUTE. -/

namespace Verif

theorem lenencSliceLen_pos (s : Bytes) : 0 < lenencSliceLen s := by
  unfold lenencSliceLen lenencIntLen
  split
  · omega
  · split
    · omega
    · split <;> omega

theorem binLen_eq_zero (v : Value) : v.binLen = 0 ↔ v = .null := by
  cases v with
  | bytes x => have := lenencSliceLen_pos x; simp [Value.binLen]; omega
  | date y m d => simp only [Value.binLen]; split <;> simp
  | datetime y mo d h mi s us => simp only [Value.binLen]; repeat' split
                                 all_goals simp
  | time n d h m s us => simp only [Value.binLen]; repeat' split
                         all_goals simp
  | _ => simp [Value.binLen]

namespace ExecRequest

/-- the loop of `new` sets exactly the bits of the NULL parameters. -/
theorem scan_spec {ε : Type} (vs : List Value) (i : Nat) (bm : Bytes) (len : Nat)
    (h : i + vs.length ≤ 8 * bm.length) :
    ∃ bm', scan (ε := ε) i vs bm len = .ok (bm', len + (vs.map Value.binLen).sum) ∧
      bm'.length = bm.length ∧
      (∀ j, j < i → Spec.bitSet bm' j = Spec.bitSet bm j) ∧
      (∀ j, i + vs.length ≤ j → Spec.bitSet bm' j = Spec.bitSet bm j) ∧
      ∀ j v, vs[j]? = some v →
        Spec.bitSet bm' (i + j) = if v = .null then true else Spec.bitSet bm (i + j) := by
  induction vs generalizing i bm len with
  | nil => exact ⟨bm, rfl, rfl, fun _ _ => rfl, fun _ _ => rfl, by simp⟩
  | cons v vs ih =>
    simp only [List.length_cons] at h
    by_cases hv : v = .null
    · have h0 : v.binLen = 0 := (binLen_eq_zero v).mpr hv
      obtain ⟨bm1, h1, h2, h3⟩ := NullBitmap.set_eq (ε := ε) true bm i true (by
        simp only [NullBitmap.offset, if_true]; omega)
      have hoff : ∀ k, k + NullBitmap.offset true = k := fun k => rfl
      rw [hoff] at h3
      obtain ⟨bm2, h4, h5, h6, h7, h8⟩ := ih (i + 1) bm1 len (by omega)
      refine ⟨bm2, ?_, by omega, ?_, ?_, ?_⟩
      · simp only [scan, h1, Out.ok_bind, h4, List.map_cons, List.sum_cons, h0]
        simp
      · intro j hj; rw [h6 j (by omega), h3, if_neg (by omega)]
      · intro j hj
        simp only [List.length_cons] at hj
        rw [h7 j (by omega), h3, if_neg (by omega)]
      · intro j w hw
        cases j with
        | zero =>
          simp at hw
          subst hw
          rw [if_pos hv, h6 _ (by omega), h3, if_pos (Nat.add_zero i)]
        | succ j =>
          have hw' : vs[j]? = some w := by simpa using hw
          have := h8 j w hw'
          rw [h3, if_neg (show ¬ i + 1 + j = i by omega)] at this
          rw [show i + (j + 1) = i + 1 + j by omega, this]
    · have h0 : ¬ v.binLen = 0 := fun e => hv ((binLen_eq_zero v).mp e)
      obtain ⟨bm2, h4, h5, h6, h7, h8⟩ := ih (i + 1) bm (len + v.binLen) (by omega)
      refine ⟨bm2, ?_, by omega, ?_, ?_, ?_⟩
      · simp only [scan, if_neg h0, h4, List.map_cons, List.sum_cons]
        rw [Nat.add_assoc]
      · intro j hj; exact h6 j (by omega)
      · intro j hj
        simp only [List.length_cons] at hj
        exact h7 j (by omega)
      · intro j w hw
        cases j with
        | zero =>
          simp at hw
          subst hw
          rw [if_neg hv, h6 _ (by omega)]
        | succ j =>
          have hw' : vs[j]? = some w := by simpa using hw
          rw [show i + (j + 1) = i + 1 + j by omega, h8 j w hw']

/-- total size used to decide about long data. -/
def totalLen (vs : List Value) : Nat :=
  10 + (vs.length + 7) / 8 + 1 + vs.length * 2 + (vs.map Value.binLen).sum

theorem new_spec {ε : Type} (id : UInt32) (vs : List Value) :
    ∃ bm, new (ε := ε) id vs = .ok
        { stmtId := id, bitmap := bm, params := vs,
          asLongData := decide (MAX_PAYLOAD_LEN < totalLen vs) } ∧
      bm.length = (vs.length + 7) / 8 ∧
      (∀ j, vs.length ≤ j → Spec.bitSet bm j = false) ∧
      ∀ j v, vs[j]? = some v → Spec.bitSet bm j = decide (v = .null) := by
  have hl : (NullBitmap.new true vs.length).length = (vs.length + 7) / 8 := by
    simp [NullBitmap.bitmapLen, NullBitmap.offset]
  obtain ⟨bm, h1, h2, h3, h4, h5⟩ := scan_spec (ε := ε) vs 0 (NullBitmap.new true vs.length) 0
    (by rw [hl]; omega)
  refine ⟨bm, ?_, by omega, ?_, ?_⟩
  · simp only [new, h1, Out.ok_bind, Out.pure_eq, totalLen, h2, hl, Nat.zero_add]
    rfl
  · intro j hj; rw [h4 j (by omega), NullBitmap.bitSet_new]
  · intro j v hv
    have := h5 j v hv
    rw [Nat.zero_add] at this
    rw [this, NullBitmap.bitSet_new]
    by_cases e : v = .null <;> simp [e]

theorem readTypes_paramType (vs : List Value) (r : Bytes) :
    Spec.readTypes vs.length (vs.flatMap paramType ++ r)
      = some (vs.map (fun v => (v.columnType.toByte.toNat, v.isUnsigned)), r) := by
  induction vs with
  | nil => rfl
  | cons v vs ih =>
    rw [List.flatMap_cons, List.append_assoc]
    simp only [List.length_cons, Spec.readTypes, paramType, List.cons_append, List.nil_append,
      spec_readInt_cons]
    simp only [Option.bind_eq_bind, Option.bind_some, ih, pure, List.map_cons, spec_readInt_cons]
    cases v.isUnsigned <;> rfl

/-- What a server holding `long` knows about a parameter list. -/
def longOf (asLongData : Bool) (vs : List Value) (i : Nat) : Option Bytes :=
  if asLongData then
    match vs[i]? with
    | some (.bytes b) => some b
    | _ => none
  else none

theorem readParams_spec (bm : Bytes) (l : Bool) (long : Nat → Option Bytes) (vs : List Value)
    (i : Nat) (r : Bytes)
    (hb : ∀ b, .bytes b ∈ vs → b.length < 2 ^ 64)
    (hlong : ∀ j v, vs[j]? = some v →
      long (i + j) = if l then (match v with | .bytes b => some b | _ => none) else none)
    (hnull : ∀ j v, vs[j]? = some v → Spec.bitSet bm (i + j) = decide (v = .null)) :
    Spec.readParams bm long i (vs.map (fun v => (v.columnType.toByte.toNat, v.isUnsigned)))
      (vs.flatMap (paramBytes l) ++ r) = some (vs.map Spec.meaning, r) := by
  induction vs generalizing i with
  | nil => rfl
  | cons v vs ih =>
    have hl0 := hlong 0 v (by simp)
    have hn0 := hnull 0 v (by simp)
    rw [Nat.add_zero] at hl0 hn0
    have ih := ih (i + 1) (fun b hb' => hb b (List.mem_cons_of_mem _ hb'))
      (fun j w hw => by
        have := hlong (j + 1) w (by simpa using hw)
        rwa [show i + (j + 1) = i + 1 + j by omega] at this)
      (fun j w hw => by
        have := hnull (j + 1) w (by simpa using hw)
        rwa [show i + (j + 1) = i + 1 + j by omega] at this)
    rw [List.flatMap_cons, List.append_assoc, List.map_cons, List.map_cons, Spec.readParams]
    have hser : ∀ rest, paramBytes l v = v.serialize → Spec.readBin v.columnType.toByte.toNat v.isUnsigned
        (paramBytes l v ++ rest) = some (Spec.meaning v, rest) := by
      intro rest he
      rw [he]
      exact readBin_serialize v rest (fun b e => hb b (by rw [e]; simp))
    cases hlv : long i with
    | some d =>
      rw [hlv] at hl0
      cases l with
      | false => simp at hl0
      | true =>
        cases v with
        | bytes b =>
          simp at hl0
          subst hl0
          simp only [paramBytes, Bool.not_true, Bool.false_eq_true, if_false, List.nil_append, ih,
            Option.bind_eq_bind, Option.bind_some, pure, Spec.meaning]
        | _ => simp at hl0
    | none =>
      simp only
      rw [hlv] at hl0
      by_cases hv : v = .null
      · subst hv
        rw [hn0]
        simp only [decide_true, if_true, paramBytes, List.nil_append, ih, Option.bind_eq_bind,
          Option.bind_some, pure, Spec.meaning]
      · rw [hn0, decide_eq_false hv]
        simp only [Bool.false_eq_true, if_false]
        have he : paramBytes l v = v.serialize := by
          cases v with
          | bytes b =>
            cases l with
            | true => simp at hl0
            | false => rfl
          | null => exact absurd rfl hv
          | _ => rfl
        rw [hser _ he]
        simp only [Option.bind_eq_bind, Option.bind_some, ih, pure]

theorem readExecute_spec {ε : Type} (id : UInt32) (vs : List Value) (r : ExecRequest)
    (hb : ∀ b, .bytes b ∈ vs → b.length < 2 ^ 64) (h : new (ε := ε) id vs = .ok r) :
    Spec.readExecute vs.length (longOf r.asLongData vs) r.serialize
      = some { stmtId := id.toNat, cursorType := 0, iterations := 1,
               params := vs.map Spec.meaning } := by
  obtain ⟨bm, h1, h2, h3, h4⟩ := new_spec (ε := ε) id vs
  rw [h] at h1
  injection h1 with h1
  subst h1
  simp only [serialize, Spec.readExecute, List.append_assoc, List.cons_append, List.nil_append,
    Command.toByte]
  rw [spec_readInt_cons]
  simp only [Option.bind_eq_bind, Option.bind_some]
  rw [if_neg (by decide)]
  simp only [pure]
  rw [spec_readInt_u32]
  simp only [Option.bind_some]
  rw [spec_readInt_cons]
  simp only [Option.bind_some]
  rw [spec_readInt_leBytes _ (by decide)]
  simp only [Option.bind_some]
  by_cases hv : vs = []
  · subst hv
    simp
  · have hl : ¬ vs.length = 0 := by simpa using hv
    rw [if_neg hv, if_neg hl, List.append_assoc, spec_readN_append _ _ h2]
    simp only [Option.bind_some]
    rw [List.singleton_append, spec_readInt_cons]
    simp only [Option.bind_some]
    rw [if_neg (by decide)]
    rw [readTypes_paramType]
    simp only [Option.bind_some]
    have := readParams_spec bm (decide (MAX_PAYLOAD_LEN < totalLen vs))
      (longOf (decide (MAX_PAYLOAD_LEN < totalLen vs)) vs) vs 0 [] hb
      (by
        intro j v hj
        rw [Nat.zero_add, longOf, hj]
        cases decide (MAX_PAYLOAD_LEN < totalLen vs) <;> cases v <;> rfl)
      (by intro j v hj; rw [Nat.zero_add]; exact h4 j v hj)
    rw [List.append_nil] at this
    rw [this]
    rfl

end ExecRequest

/-- Size of every value but the zero DATE. -/
theorem length_serialize {v : Value} (hz : v ≠ .date 0 0 0)
    (hb : ∀ b, v = .bytes b → b.length < 2 ^ 64) : v.serialize.length = v.binLen := by
  cases v with
  | bytes x => exact length_putLenencSlice (hb x rfl)
  | date y m d =>
    have : ¬ (y = 0 ∧ m = 0 ∧ d = 0) := by
      rintro ⟨rfl, rfl, rfl⟩; exact hz rfl
    simp [Value.serialize, Value.binLen, if_neg this]
  | datetime y mo d h mi s us =>
    simp only [Value.serialize, Value.binLen]
    split
    · rfl
    · split
      · simp
      · split <;> simp
  | time n d h m s us =>
    simp only [Value.serialize, Value.binLen]
    split
    · rfl
    · split <;> simp
  | _ => simp [Value.serialize, Value.binLen]

end Verif

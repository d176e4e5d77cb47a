import Verif.Model.Convert
import Verif.Proofs.Utf8
import Verif.Spec.Value

/-! # C25 — converting a Rust value to a database value and back is lossless -/

namespace Verif

/-- Every value of every scalar type survives. -/
theorem C25_round_trip (t : ScalarTy) (x : t.Carrier) : tryInto t (intoValue t x) = .ok x := by
  cases t
  case string => exact congrArg (Out.ofOption ParseError.fromUtf8) (fromUtf8_utf8 x)
  case bool =>
    have : ∀ b : Bool, tryInto .bool (intoValue .bool b) = .ok b := by
      intro b; cases b <;> rfl
    exact this x
  all_goals rfl

/-- Optional values: `None` is NULL, `Some(x)` is `x`. -/
theorem C25_option_round_trip (t : ScalarTy) (x : Option t.Carrier) :
    tryIntoOpt t (optIntoValue t x) = .ok x ∧ (optIntoValue t x = .null ↔ x = none) := by
  cases x with
  | none => exact ⟨rfl, by simp [optIntoValue]⟩
  | some x =>
    have h := C25_round_trip t x
    have hn : intoValue t x ≠ .null := by cases t <;> simp [intoValue]
    refine ⟨?_, by simp [optIntoValue, hn]⟩
    unfold optIntoValue tryIntoOpt
    dsimp only
    split
    · rename_i he; exact absurd he hn
    · rw [h]; rfl

/-- the kind of a database value, by what it means. -/
def Spec.kind : Spec.Datum → Option ValueType
  | .int 1 false _ => some .tiny
  | .int 2 false _ => some .short
  | .int 4 false _ => some .int
  | .int 8 false _ => some .long
  | .int 1 true _ => some .utiny
  | .int 2 true _ => some .ushort
  | .int 4 true _ => some .uint
  | .int 8 true _ => some .ulong
  | .int _ _ _ => none
  | .float _ => some .float
  | .double _ => some .double
  | .str _ => some .bytes
  | .date .. => some .date
  | .time .. => some .time
  | .datetime .. => some .datetime
  | .null => none

/-- the kind each Rust type expects; `bool` is served by every integer kind. -/
def Spec.expected : ScalarTy → ValueType
  | .i8 => .tiny | .i16 => .short | .i32 => .int | .i64 => .long
  | .u8 => .utiny | .u16 => .ushort | .u32 => .uint | .u64 => .ulong
  | .f32 => .float | .f64 => .double | .bool => .number
  | .string => .bytes | .bytes => .bytes | .hex => .bytes

/-- integer kinds. -/
def Spec.isIntKind : Spec.Datum → Bool
  | .int .. => true
  | _ => false

/-- A value of another kind (including NULL) is rejected with the error that names the expected
kind and carries the value; nothing is coerced. -/
theorem C25_other_kind_rejected (t : ScalarTy) (v : Value)
    (h : if t = .bool then Spec.isIntKind (Spec.meaning v) = false
      else Spec.kind (Spec.meaning v) ≠ some (Spec.expected t)) :
    tryInto t v = .err (.wrongValue (Spec.expected t) v) := by
  cases t <;> cases v <;>
    first
      | rfl
      | (exfalso; revert h; simp [Spec.meaning, Spec.kind, Spec.expected, Spec.isIntKind])

/-- A value of the right kind is accepted, except bytes that are not UTF-8 as a string. -/
theorem C25_same_kind_accepted (t : ScalarTy) (v : Value)
    (h : if t = .bool then Spec.isIntKind (Spec.meaning v) = true
      else Spec.kind (Spec.meaning v) = some (Spec.expected t)) :
    (∃ x, tryInto t v = .ok x ∧ (t ≠ .bool → intoValue t x = v)) ∨
    (t = .string ∧ ∃ b, v = .bytes b ∧ fromUtf8 b = none ∧ tryInto t v = .err .fromUtf8) := by
  cases t <;> cases v <;>
    first
      | exact .inl ⟨_, rfl, fun _ => rfl⟩
      | exact .inl ⟨_, rfl, fun h => absurd rfl h⟩
      | (exfalso; revert h; simp [Spec.meaning, Spec.kind, Spec.expected, Spec.isIntKind, Spec.mkTime]; done)
      | skip
  rename_i b
  cases hb : fromUtf8 b with
  | some s =>
    left
    refine ⟨s, by simp only [tryInto, hb]; rfl, fun _ => ?_⟩
    simp only [intoValue, utf8_of_fromUtf8 hb]
  | none =>
    right
    exact ⟨rfl, b, rfl, hb, by simp only [tryInto, hb]; rfl⟩

/-- `bool`: positive numbers are true, zero and negative numbers are false. -/
theorem C25_bool (v : Value) (w : Nat) (u : Bool) (x : Int) (h : Spec.meaning v = .int w u x) :
    tryInto .bool v = .ok (decide (0 < x)) := by
  cases v <;> simp only [Spec.meaning, Spec.mkTime, Spec.Datum.int.injEq, reduceCtorEq] at h
  all_goals obtain ⟨-, -, rfl⟩ := h
  all_goals
    simp only [tryInto]
    congr 1
    apply decide_eq_decide.2
    first
      | exact Iff.rfl
      | (rw [Int8.lt_iff_toInt_lt]; rfl)
      | (rw [Int16.lt_iff_toInt_lt]; rfl)
      | (rw [Int32.lt_iff_toInt_lt]; rfl)
      | (rw [Int64.lt_iff_toInt_lt]; rfl)
      | (rw [UInt8.lt_iff_toNat_lt]; simp)
      | (rw [UInt16.lt_iff_toNat_lt]; simp)
      | (rw [UInt32.lt_iff_toNat_lt]; simp)
      | (rw [UInt64.lt_iff_toNat_lt]; simp)

/-- MySQL's truth value of a number is "not zero"; a negative number is false here. -/
theorem C25_negative_bool_violated : tryInto .bool (.tiny (-1)) = .ok false := rfl

/-- a value is read as `x` exactly if it is the one that `x` is written as: nothing else is taken for it. -/
theorem C25_exact (t : ScalarTy) (ht : t ≠ .bool) (v : Value) (x : t.Carrier) :
    tryInto t v = .ok x ↔ v = intoValue t x := by
  constructor
  · intro h
    by_cases hk : Spec.kind (Spec.meaning v) = some (Spec.expected t)
    · rcases C25_same_kind_accepted t v (by rw [if_neg ht]; exact hk) with ⟨y, hy, hv⟩ | ⟨-, b, -, -, hb⟩
      · rw [h] at hy
        cases hy
        exact (hv ht).symm
      · rw [h] at hb
        cases hb
    · rw [C25_other_kind_rejected t v (by rw [if_neg ht]; exact hk)] at h
      cases h
  · rintro rfl
    exact C25_round_trip t x

/-- an optional value is read as missing exactly if it is NULL, as `x` exactly if it is the one that `x` is
written as, and NULL is an error where a value is needed. -/
theorem C25_option_exact (t : ScalarTy) (v : Value) :
    (tryIntoOpt t v = .ok none ↔ v = .null) ∧
    (t ≠ .bool → ∀ x, tryIntoOpt t v = .ok (some x) ↔ v = intoValue t x) ∧
    (∀ x, tryIntoOpt t v = .ok (some x) ↔ tryInto t v = .ok x) ∧
    (∀ e, tryIntoOpt t v = .err e ↔ v ≠ .null ∧ tryInto t v = .err e) ∧
    tryInto t .null = .err (.wrongValue (Spec.expected t) .null) := by
  have hnull : tryInto t .null = .err (.wrongValue (Spec.expected t) .null) := by cases t <;> rfl
  have hsome : ∀ x, tryIntoOpt t v = .ok (some x) ↔ tryInto t v = .ok x := by
    intro x
    by_cases hv : v = .null
    · subst hv
      rw [hnull]
      exact ⟨fun h => (by cases h), fun h => (by cases h)⟩
    · have : tryIntoOpt t v = (tryInto t v).map' some := by unfold tryIntoOpt; cases v <;> first | rfl | exact absurd rfl hv
      rw [this]
      cases tryInto t v <;> simp [Out.map']
  refine ⟨?_, fun ht x => (hsome x).trans (C25_exact t ht v x), hsome, ?_, hnull⟩
  · by_cases hv : v = .null
    · subst hv; exact ⟨fun _ => rfl, fun _ => rfl⟩
    · have : tryIntoOpt t v = (tryInto t v).map' some := by unfold tryIntoOpt; cases v <;> first | rfl | exact absurd rfl hv
      rw [this]
      cases tryInto t v <;> simp [Out.map', hv]
  · intro e
    by_cases hv : v = .null
    · subst hv; exact ⟨fun h => (by cases h), fun h => absurd rfl h.1⟩
    · have : tryIntoOpt t v = (tryInto t v).map' some := by unfold tryIntoOpt; cases v <;> first | rfl | exact absurd rfl hv
      rw [this]
      cases tryInto t v <;> simp [Out.map', hv]

example : tryIntoOpt .string (.bytes [0x68, 0x69]) = .ok (some "hi".toList) :=
  ((C25_option_exact .string _).2.1 (by decide) _).2 (congrArg Value.bytes (by decide +kernel))
example : tryIntoOpt .string (.bytes [0xC3]) = .err .fromUtf8 := rfl

example : tryInto .i16 (.int 5) = .err (.wrongValue .short (.int 5)) := rfl
example : tryInto .string (.bytes [0xC3]) = .err .fromUtf8 := rfl
example : tryIntoOpt .i64 .null = .ok none := rfl

end Verif

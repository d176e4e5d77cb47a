import Verif.Model.Convert

/-!
# Spec: Rust values as parameters and results

The types for which the library has conversions to and from `Value`, optional or not.
-/

namespace Verif

/-- the Rust types with conversions in both directions. -/
inductive RustTy where
  | scalar (t : ScalarTy)
  | date | datetime | duration

def RustTy.Carrier : RustTy → Type
  | scalar t => t.Carrier
  | date => NaiveDate
  | datetime => NaiveDateTime
  | duration => Duration

/-- `value.try_into()`. -/
def RustTy.into : (t : RustTy) → t.Carrier → Out SerializeError Value
  | scalar t, x => .ok (intoValue t x)
  | date, (x : NaiveDate) => dateIntoValue x
  | datetime, (x : NaiveDateTime) => datetimeIntoValue x
  | duration, (x : Duration) => .ok (durationIntoValue x)

/-- `value.try_into()`, the other way. -/
def RustTy.back : (t : RustTy) → Value → Out ParseError t.Carrier
  | scalar t, v => tryInto t v
  | date, v => valueIntoDate v
  | datetime, v => valueIntoDatetime v
  | duration, v => valueIntoDuration v

/-- an `Option<T>`; conversion.rs 225-254. -/
structure RustVal where
  ty : RustTy
  val : Option ty.Carrier

def RustVal.into (x : RustVal) : Out SerializeError Value :=
  match x.val with
  | some y => x.ty.into y
  | none => .ok .null

/-- reading a value as an `Option` of the type of `x`. -/
def RustVal.back (x : RustVal) (v : Value) : Out ParseError (Option x.ty.Carrier) :=
  match v with
  | .null => .ok none
  | v => (x.ty.back v).map' some

namespace Spec

/-- What the database's types can hold: years from 0 to 65535, whole microseconds, no leap seconds, less
than 2^32 days.  (The library also loses the sign of durations strictly between -1 s and 0.) -/
def Holdable : (t : RustTy) → t.Carrier → Prop
  | .scalar .string, (x : Str) => (utf8 x).length < 2 ^ 64
  | .scalar .bytes, (x : Bytes) => x.length < 2 ^ 64
  | .scalar .hex, (x : Bytes) => x.length < 2 ^ 64
  | .scalar _, _ => True
  | .date, (x : NaiveDate) => x.Valid ∧ 0 ≤ x.year ∧ x.year ≤ 65535
  | .datetime, (x : NaiveDateTime) => x.date.Valid ∧ x.time.Valid ∧ 0 ≤ x.date.year ∧ x.date.year ≤ 65535 ∧
      x.time.nano % 1000 = 0 ∧ x.time.nano < 1000000000
  | .duration, (x : Duration) => x.Valid ∧ x.nanos % 1000 = 0 ∧ (x.secs < -1 ∨ x.secs = -1 ∧ x.nanos = 0 ∨ 0 ≤ x.secs) ∧
      -(2 ^ 32 * 86400) < x.secs ∧ x.secs < 2 ^ 32 * 86400

def HoldableVal (x : RustVal) : Prop := ∀ y, x.val = some y → Holdable x.ty y

end Spec

end Verif

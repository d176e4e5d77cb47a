import Verif.Model.Types
import Verif.Model.Utf8

/-!
# Conversions between Rust values and database values

Mirrors `src/types/value/conversion.rs` and `src/types/hex.rs` 87-103.  Of the crate `chrono` the
constructors and accessors that the code calls are modelled.
-/

namespace Verif

/-- the types for which conversion.rs 28-39 uses `impl_conversion!`, and the byte-like types. -/
inductive ScalarTy where
  | i8 | i16 | i32 | i64 | u8 | u16 | u32 | u64 | f32 | f64 | bool | string | bytes | hex
  deriving DecidableEq, Repr

/-- `f32`/`f64` as bit patterns. -/
def ScalarTy.Carrier : ScalarTy → Type
  | i8 => Int8 | i16 => Int16 | i32 => Int32 | i64 => Int64
  | u8 => UInt8 | u16 => UInt16 | u32 => UInt32 | u64 => UInt64
  | f32 => UInt32 | f64 => UInt64 | bool => Bool | string => Str | bytes => Bytes | hex => Bytes

/-- `From<T> for Value`: conversion.rs 9-13, 41-45, 65-69, 82-86, hex.rs 89-93. -/
def intoValue : (t : ScalarTy) → t.Carrier → Value
  | .i8, x => .tiny x | .i16, x => .short x | .i32, x => .int x | .i64, x => .long x
  | .u8, x => .utiny x | .u16, x => .ushort x | .u32, x => .uint x | .u64, x => .ulong x
  | .f32, x => .float x | .f64, x => .double x
  | .bool, (x : Bool) => .tiny (if x then 1 else 0)
  | .string, x => .bytes (utf8 x)
  | .bytes, x => .bytes x
  | .hex, x => .bytes x

/-- `TryInto<T> for Value`: conversion.rs 15-24, 47-63, 71-80, 88-97, hex.rs 95-104. -/
def tryInto : (t : ScalarTy) → Value → Out ParseError t.Carrier
  | .i8, v => match v with | .tiny x => .ok x | _ => .err (.wrongValue .tiny v)
  | .i16, v => match v with | .short x => .ok x | _ => .err (.wrongValue .short v)
  | .i32, v => match v with | .int x => .ok x | _ => .err (.wrongValue .int v)
  | .i64, v => match v with | .long x => .ok x | _ => .err (.wrongValue .long v)
  | .u8, v => match v with | .utiny x => .ok x | _ => .err (.wrongValue .utiny v)
  | .u16, v => match v with | .ushort x => .ok x | _ => .err (.wrongValue .ushort v)
  | .u32, v => match v with | .uint x => .ok x | _ => .err (.wrongValue .uint v)
  | .u64, v => match v with | .ulong x => .ok x | _ => .err (.wrongValue .ulong v)
  | .f32, v => match v with | .float x => .ok x | _ => .err (.wrongValue .float v)
  | .f64, v => match v with | .double x => .ok x | _ => .err (.wrongValue .double v)
  | .bool, v => match v with
    | .tiny x => .ok (decide (0 < x))
    | .short x => .ok (decide (0 < x))
    | .int x => .ok (decide (0 < x))
    | .long x => .ok (decide (0 < x))
    | .utiny x => .ok (decide (0 < x))
    | .ushort x => .ok (decide (0 < x))
    | .uint x => .ok (decide (0 < x))
    | .ulong x => .ok (decide (0 < x))
    | _ => .err (.wrongValue .number v)
  | .string, v => match v with
    | .bytes x => Out.ofOption .fromUtf8 (fromUtf8 x)
    | _ => .err (.wrongValue .bytes v)
  | .bytes, v => match v with | .bytes x => .ok x | _ => .err (.wrongValue .bytes v)
  | .hex, v => match v with | .bytes x => .ok x | _ => .err (.wrongValue .bytes v)

/-- conversion.rs 225-237 `TryFrom<Option<T>> for Value`. -/
def optIntoValue (t : ScalarTy) : Option t.Carrier → Value
  | some x => intoValue t x
  | none => .null

/-- conversion.rs 239-254 `impl_try_into_option!`. -/
def tryIntoOpt (t : ScalarTy) (v : Value) : Out ParseError (Option t.Carrier) :=
  match v with
  | .null => .ok none
  | x => (tryInto t x).map' some

/-! ### chrono -/

/-- days of a month in the proleptic Gregorian calendar. -/
def isLeap (y : Int) : Bool := y % 4 == 0 && (y % 100 != 0 || y % 400 == 0)

def daysInMonth (y : Int) (m : Nat) : Nat :=
  if m = 2 then (if isLeap y then 29 else 28)
  else if m = 4 ∨ m = 6 ∨ m = 9 ∨ m = 11 then 30
  else 31

/-- `chrono::NaiveDate`. -/
structure NaiveDate where
  year : Int
  month : Nat
  day : Nat
  deriving DecidableEq, Repr

/-- `chrono::NaiveTime`; `nano` is at least 10^9 during a leap second. -/
structure NaiveTime where
  hour : Nat
  minute : Nat
  second : Nat
  nano : Nat
  deriving DecidableEq, Repr

structure NaiveDateTime where
  date : NaiveDate
  time : NaiveTime
  deriving DecidableEq, Repr

/-- `NaiveDate::from_ymd_opt`. -/
def NaiveDate.fromYmdOpt (y : Int) (m d : Nat) : Option NaiveDate :=
  if -262143 ≤ y ∧ y ≤ 262142 ∧ 1 ≤ m ∧ m ≤ 12 ∧ 1 ≤ d ∧ d ≤ daysInMonth y m then some ⟨y, m, d⟩
  else none

/-- `NaiveTime::from_hms_nano_opt`. -/
def NaiveTime.fromHmsNanoOpt (h m s n : Nat) : Option NaiveTime :=
  if 24 ≤ h ∨ 60 ≤ m ∨ 60 ≤ s ∨ (1000000000 ≤ n ∧ s ≠ 59) ∨ 2000000000 ≤ n then none
  else some ⟨h, m, s, n⟩

/-- `NaiveTime::from_hms_micro_opt` (`micro.checked_mul(1_000)?`). -/
def NaiveTime.fromHmsMicroOpt (h m s us : Nat) : Option NaiveTime :=
  if 2 ^ 32 ≤ us * 1000 then none else NaiveTime.fromHmsNanoOpt h m s (us * 1000)

/-- a `chrono::NaiveDate` that exists. -/
def NaiveDate.Valid (d : NaiveDate) : Prop := NaiveDate.fromYmdOpt d.year d.month d.day = some d

/-- a `chrono::NaiveTime` that exists (`with_nanosecond` allows a leap second after any second). -/
def NaiveTime.Valid (t : NaiveTime) : Prop :=
  t.hour < 24 ∧ t.minute < 60 ∧ t.second < 60 ∧ t.nano < 2000000000

/-- `i32 → u16` by `try_into`. -/
def yearToU16 (y : Int) : Option UInt16 :=
  if 0 ≤ y ∧ y ≤ 65535 then some (UInt16.ofNat y.toNat) else none

/-- conversion.rs 99-112. -/
def dateIntoValue (d : NaiveDate) : Out SerializeError Value :=
  match yearToU16 d.year with
  | none => .err (.invalidValue .date)
  | some y => .ok (.date y (UInt8.ofNat d.month) (UInt8.ofNat d.day))

/-- conversion.rs 114-131. -/
def datetimeIntoValue (d : NaiveDateTime) : Out SerializeError Value :=
  match yearToU16 d.date.year with
  | none => .err (.invalidValue .datetime)
  | some y => .ok (.datetime y (UInt8.ofNat d.date.month) (UInt8.ofNat d.date.day)
      (UInt8.ofNat d.time.hour) (UInt8.ofNat d.time.minute) (UInt8.ofNat d.time.second)
      (UInt32.ofNat (d.time.nano / 1000)))

/-- conversion.rs 133-145. -/
def valueIntoDate (v : Value) : Out ParseError NaiveDate :=
  match v with
  | .date y m d => Out.ofOption (.valueOutOfBounds v) (NaiveDate.fromYmdOpt y.toNat m.toNat d.toNat)
  | .datetime y m d _ _ _ _ =>
    Out.ofOption (.valueOutOfBounds v) (NaiveDate.fromYmdOpt y.toNat m.toNat d.toNat)
  | _ => .err (.wrongValue .date v)

/-- conversion.rs 147-165. -/
def valueIntoDatetime (v : Value) : Out ParseError NaiveDateTime :=
  match v with
  | .datetime y mo d h m s us =>
    match NaiveDate.fromYmdOpt y.toNat mo.toNat d.toNat with
    | none => .err (.valueOutOfBounds v)
    | some date =>
      match NaiveTime.fromHmsMicroOpt h.toNat m.toNat s.toNat us.toNat with
      | none => .err (.valueOutOfBounds v)
      | some time => .ok ⟨date, time⟩
  | _ => .err (.wrongValue .datetime v)

/-- `chrono::Duration` (`TimeDelta`): `secs` seconds plus `0 ≤ nanos < 10^9`. -/
structure Duration where
  secs : Int
  nanos : Nat
  deriving DecidableEq, Repr

/-- `TimeDelta::new`: the range is ±`i64::MAX` milliseconds. -/
def Duration.new (secs : Int) (nanos : Nat) : Option Duration :=
  if secs < -9223372036854776 ∨ 9223372036854775 < secs ∨ 1000000000 ≤ nanos ∨
      (secs = 9223372036854775 ∧ 807000000 < nanos) ∨
      (secs = -9223372036854776 ∧ nanos < 193000000) then none
  else some ⟨secs, nanos⟩

/-- a duration that exists. -/
def Duration.Valid (d : Duration) : Prop := Duration.new d.secs d.nanos = some d

instance (d : Duration) : Decidable d.Valid := inferInstanceAs (Decidable (_ = _))

/-- `TimeDelta::num_seconds`. -/
def Duration.numSeconds (d : Duration) : Int := if d.secs < 0 ∧ 0 < d.nanos then d.secs + 1 else d.secs

/-- `TimeDelta::subsec_nanos`. -/
def Duration.subsecNanos (d : Duration) : Int :=
  if d.secs < 0 ∧ 0 < d.nanos then (d.nanos : Int) - 1000000000 else d.nanos

/-- conversion.rs 167-183. -/
def durationIntoValue (d : Duration) : Value :=
  let seconds := d.numSeconds.natAbs
  let minutes := seconds / 60
  let hours := minutes / 60
  let days := hours / 24
  .time (decide (d.numSeconds < 0)) (UInt32.ofNat days) (UInt8.ofNat (hours % 24))
    (UInt8.ofNat (minutes % 60)) (UInt8.ofNat (seconds % 60))
    (UInt32.ofNat (d.subsecNanos.natAbs / 1000))

/-- conversion.rs 185-223 (the `i64` arithmetic cannot overflow, see `C27_no_overflow`). -/
def valueIntoDuration (v : Value) : Out ParseError Duration :=
  match v with
  | .time neg days h m s us =>
    if 1000000 ≤ us.toNat then .err (.valueOutOfBounds v)
    else
      let x : Int := (((days.toNat : Int) * 24 + h.toNat) * 60 + m.toNat) * 60 + s.toNat
      let p : Int × Nat :=
        if neg then
          if us ≠ 0 then (x * -1 - 1, (1000000 - us.toNat) * 1000) else (x * -1, 0)
        else (x, us.toNat * 1000)
      Out.ofOption (.valueOutOfBounds v) (Duration.new p.1 p.2)
  | _ => .err (.wrongValue .time v)

end Verif

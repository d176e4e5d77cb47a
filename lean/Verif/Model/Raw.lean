import Verif.Model.Packets

/-!
# The blocks that the compiler does not check

The crate reads fixed-size arrays through pointers (parse_buf.rs 97 and 104, serialization.rs 33 and 50, err.rs 94),
takes bytes for text without a test (err.rs 55-58), and sets the length of a vector (sync_pool.rs 57-59).  Elsewhere in
the model these do what is meant.  Here they are modelled with memory: the packet is a part of a larger memory, a slice
is a place in it, and an access that the language leaves undefined is an outcome of its own.

A pointer made from a slice may be used for the bytes of that slice only, also when there are more bytes behind it.
-/

namespace Verif

/-- a slice `&[u8]`: where it starts and how long it is. -/
structure View where
  off : Nat
  len : Nat
  deriving DecidableEq, Repr

/-- what the slice shows of the memory. -/
def View.bytes (mem : Bytes) (v : View) : Bytes := (mem.drop v.off).take v.len

/-- an outcome, or what is not defined. -/
inductive Raw (ε α : Type) where
  | defined (x : Out ε α)
  | undefined
  deriving DecidableEq, Repr

/-- a function on `&mut ParseBuf` in memory. -/
def RawM (α : Type) := Bytes → View → Raw ProtocolError α × View

instance : Monad RawM where
  pure a := fun _ v => (.defined (.ok a), v)
  bind m f := fun mem v => match m mem v with
    | (.defined (.ok a), v') => f a mem v'
    | (.defined (.err e), v') => (.defined (.err e), v')
    | (.defined .panic, v') => (.defined .panic, v')
    | (.undefined, v') => (.undefined, v')

namespace RawM

def fail {α : Type} (e : ProtocolError) : RawM α := fun _ v => (.defined (.err e), v)

def crash {α : Type} : RawM α := fun _ v => (.defined .panic, v)

/-- what is left, copied (`buf.0.to_vec()`). -/
def rest : RawM Bytes := fun mem v => (.defined (.ok (v.bytes mem)), v)

/-- `*(slice as *const _ as *const [u8; N])`. -/
def array (n : Nat) (s : View) : RawM Bytes := fun mem v =>
  if n ≤ s.len then (.defined (.ok ((mem.drop s.off).take n)), v) else (.undefined, v)

/-- `std::str::from_utf8` of a slice, `to_owned`, indexing: access with checks. -/
def load (s : View) : RawM Bytes := fun mem v => (.defined (.ok (s.bytes mem)), v)

/-- parse_buf.rs 46-50 `eat`. -/
def eat (n : Nat) : RawM View := fun _ v =>
  if n ≤ v.len then (.defined (.ok ⟨v.off, n⟩), ⟨v.off + n, v.len - n⟩) else (.defined .panic, v)

/-- parse_buf.rs 53-59 `checked_eat`. -/
def checkedEat (n : Nat) : RawM View := fun mem v =>
  if n ≤ v.len then eat n mem v else (.defined (.err .eof), v)

/-- parse_buf.rs 62-66 `eat_all`. -/
def eatAll : RawM View := fun _ v => (.defined (.ok v), ⟨v.off + v.len, 0⟩)

/-- parse_buf.rs 94-98 `eat_u8`, `eat_u16`, …: numbers of `size` bytes. -/
def eatNum (size : Nat) : RawM Nat := do
  let bytes ← eat size
  return leNat (← array size bytes)

/-- parse_buf.rs 101-105 `checked_eat_u8`, … -/
def checkedEatNum (size : Nat) : RawM Nat := do
  let bytes ← checkedEat size
  return leNat (← array size bytes)

/-- parse_buf.rs 111-117 `eat_u24`, …: the bytes are copied one by one into an array of `size` zeros. -/
def eatPart (size part : Nat) : RawM Nat := do
  let bytes ← eat part
  let b ← load bytes
  if b.length ≤ size then return leNat (b ++ List.replicate (size - b.length) 0)
  else crash

/-- parse_buf.rs 120-126 `checked_eat_u24`, … -/
def checkedEatPart (size part : Nat) : RawM Nat := do
  let bytes ← checkedEat part
  let b ← load bytes
  if b.length ≤ size then return leNat (b ++ List.replicate (size - b.length) 0)
  else crash

/-- serialization.rs 31-34 `deserialize` of numbers. -/
def deserializeNum (size : Nat) : RawM Nat := do
  let bytes ← eat size
  return leNat (← array size bytes)

/-- serialization.rs 49-51 `deserialize` of `[u8; N]`. -/
def deserializeArray (n : Nat) : RawM Bytes := do
  let bytes ← eat n
  array n bytes

/-- parse_buf.rs 77-87 `parse` of a type with a constant `SIZE`. -/
def parse {α : Type} (size : Nat) (deserialize : RawM α) : RawM α := fun mem v =>
  if v.len < size then (.defined (.err .eof), v) else deserialize mem v

/-- err.rs 82-106 `ErrorPacket::deserialize`. -/
def deserializeError (code : UInt16) (protocol41 : Bool) : RawM ErrPacket := do
  let state ←
    if protocol41 then do
      let m ← checkedEatNum 1
      if m ≠ 0x23 then do
        let left ← rest
        fail (.invalidPacket left)
      else do
        let s ← checkedEat 5
        let state ← array 5 s
        match fromUtf8 state with
        | some _ => pure (some state)
        | none => fail (.parse .utf8)
    else pure none
  let all ← eatAll
  let rest ← load all
  match fromUtf8 rest with
  | some msg => pure (.error code state msg)
  | none => fail (.parse .fromUtf8)

end RawM

/-- err.rs 54-59 `state_str` with `from_utf8_unchecked`. -/
def rawStateStr (state : Option Bytes) : Raw Empty (Option Str) :=
  match state with
  | none => .defined (.ok none)
  | some b =>
    match fromUtf8 b with
    | some s => .defined (.ok (some s))
    | none => .undefined

/-! ### vectors -/

/-- a vector of values that own something: what is in it, and the capacity. -/
structure OwnVec (α : Type) where
  items : List α
  cap : Nat
  deriving DecidableEq, Repr

/-- standard library, `Vec::set_len`: what is cut off is forgotten, not dropped; a length that is greater needs
room and values that are there. -/
def OwnVec.setLen {α : Type} (v : OwnVec α) (n : Nat) : Option (OwnVec α) :=
  if n ≤ v.items.length then some { v with items := v.items.take n } else none

/-- sync_pool.rs 56-61 `reset`: the vector, and the values that were dropped. `none` = undefined. -/
def OwnVec.reset {α : Type} (sizeCap : Nat) (v : OwnVec α) : Option (OwnVec α × List α) :=
  (v.setLen 0).map fun w => ({ w with cap := max w.items.length (min w.cap sizeCap) }, [])

end Verif

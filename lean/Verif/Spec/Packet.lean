import Verif.Spec.Wire

/-!
# Spec: MySQL packets

"If a MySQL client or server wants to send data, it divides the data into packets of size
(2^24−1) bytes and prepends to each chunk a packet header: `int<3>` payload length, `int<1>`
sequence id.  If the payload is larger than or equal to 2^24−1 bytes the length is set to 2^24−1
(ff ff ff) and additional packets are sent with the rest of the payload until the payload of a
packet is less than 2^24−1 bytes."
-/

namespace Verif.Spec

def maxFrame : Nat := 0xFFFFFF

/-- the bytes of a payload on the wire, starting with sequence id `seq`. -/
def frames (seq : UInt8) (p : Bytes) : Bytes :=
  if p.length < maxFrame then le 3 p.length ++ [seq] ++ p
  else le 3 maxFrame ++ [seq] ++ p.take maxFrame ++ frames (seq + 1) (p.drop maxFrame)
termination_by p.length
decreasing_by
  simp only [List.length_drop, maxFrame] at *
  omega

/-- number of frames of a payload. -/
def frameCount (p : Bytes) : Nat := p.length / maxFrame + 1

/-- a receiver that expects sequence id `seq`: payload, next expected id, remaining bytes;
`none` = protocol violation or more data needed.  `fuel` bounds the number of frames. -/
def receive : Nat → UInt8 → Bytes → Option (Bytes × UInt8 × Bytes)
  | 0, _, _ => none
  | fuel + 1, seq, s =>
    match s with
    | l0 :: l1 :: l2 :: q :: r =>
      let n := l0.toNat + 256 * l1.toNat + 65536 * l2.toNat
      if q ≠ seq then none
      else if r.length < n then none
      else if n < maxFrame then some (r.take n, seq + 1, r.drop n)
      else match receive fuel (seq + 1) (r.drop n) with
        | some (p, q', r') => some (r.take n ++ p, q', r')
        | none => none
    | _ => none

end Verif.Spec

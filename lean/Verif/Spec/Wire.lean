import Verif.Basic

/-!
# Spec: basic wire types of the MySQL protocol

Written from the protocol documentation ("Integer Types", "String Types"),
independently of the model of the connector.
-/

namespace Verif.Spec

/-- `int<k>`: `k` bytes, least significant first. -/
def le (k n : Nat) : Bytes := (List.range k).map fun i => UInt8.ofNat (n / 256 ^ i % 256)

/-- value of an `int<k>`. -/
def unle (bs : Bytes) : Nat := bs.foldr (fun b acc => b.toNat + 256 * acc) 0

/-- `int<lenenc>` of a value below 2^64, shortest form. -/
def lenenc (n : Nat) : Bytes :=
  if n ≤ 250 then [UInt8.ofNat n]
  else if n ≤ 65535 then 0xFC :: le 2 n
  else if n ≤ 16777215 then 0xFD :: le 3 n
  else 0xFE :: le 8 n

/-- `string<lenenc>`. -/
def lenencStr (s : Bytes) : Bytes := lenenc s.length ++ s

/-- a server (or any reader) decoding `int<lenenc>`; the prefixes 0xFB and 0xFF are not integers. -/
def readLenenc : Bytes → Option (Nat × Bytes)
  | [] => none
  | b :: r =>
    if b.toNat ≤ 250 then some (b.toNat, r)
    else if b = 0xFC then if 2 ≤ r.length then some (unle (r.take 2), r.drop 2) else none
    else if b = 0xFD then if 3 ≤ r.length then some (unle (r.take 3), r.drop 3) else none
    else if b = 0xFE then if 8 ≤ r.length then some (unle (r.take 8), r.drop 8) else none
    else none

/-- a reader decoding `string<lenenc>`. -/
def readLenencStr (bs : Bytes) : Option (Bytes × Bytes) :=
  match readLenenc bs with
  | some (n, r) => if n ≤ r.length then some (r.take n, r.drop n) else none
  | none => none

/-- a reader decoding `string<NUL>`. -/
def readNul : Bytes → Option (Bytes × Bytes)
  | [] => none
  | b :: r => if b = 0 then some ([], r) else
    match readNul r with
    | some (s, r') => some (b :: s, r')
    | none => none

/-- a reader taking `n` bytes. -/
def readN (n : Nat) (bs : Bytes) : Option (Bytes × Bytes) :=
  if n ≤ bs.length then some (bs.take n, bs.drop n) else none

/-- a reader of `int<k>`. -/
def readInt (k : Nat) (bs : Bytes) : Option (Nat × Bytes) :=
  (readN k bs).map fun p => (unle p.1, p.2)

end Verif.Spec

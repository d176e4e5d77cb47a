import Verif.Spec.Oaep

/-!
# RFC 8017: the private-key side of RSAES-OAEP (section 7.1.2)
-/

namespace Verif.Spec

/-- 4.2: octet string to integer, most significant octet first. -/
def os2ip : Bytes → Nat
  | [] => 0
  | b :: r => b.toNat * 256 ^ r.length + os2ip r

/-- 4.1: integer to octet string of the given length. -/
def i2osp : Nat → Nat → Bytes
  | 0, _ => []
  | k + 1, n => UInt8.ofNat (n / 256 ^ k) :: i2osp k n

/-- the length of the modulus in octets: the least `k` with `n < 256 ^ k`. -/
def octets (n : Nat) : Nat := if n = 0 then 0 else Nat.log2 n / 8 + 1

/-- 7.1.2: decrypt with the private exponent `d`; `none` is "decryption error". -/
def rsaDecrypt (hash : Bytes → Bytes) (n d : Nat) (cipher : Bytes) : Option Bytes :=
  if cipher.length ≠ octets n ∨ n ≤ os2ip cipher then none
  else oaepDecode hash (i2osp (octets n) (os2ip cipher ^ d % n))

end Verif.Spec

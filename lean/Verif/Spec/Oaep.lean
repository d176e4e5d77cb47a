import Verif.Basic

/-!
# RFC 8017: MGF1 and the OAEP decoder

Written from the RFC (section 7.1.2 step 3 and appendix B.2.1) with the SHA-1 sizes and an empty
label; the hash function is a parameter.
-/

namespace Verif.Spec

/-- RFC 8017 4.1, I2OSP with four octets. -/
def i2osp4 (n : Nat) : Bytes :=
  [UInt8.ofNat (n / 2 ^ 24), UInt8.ofNat (n / 2 ^ 16), UInt8.ofNat (n / 2 ^ 8), UInt8.ofNat n]

/-- B.2.1: concatenate the hashes of seed and counter for `ceil (len / hLen)` counters, keep the
leading `len` octets. -/
def mgf1 (hash : Bytes → Bytes) (seed : Bytes) (len : Nat) : Bytes :=
  ((List.range ((len + 19) / 20)).flatMap fun i => hash (seed ++ i2osp4 i)).take len

/-- bitwise exclusive or of two strings of the same length. -/
def xor (a b : Bytes) : Bytes := List.zipWith (· ^^^ ·) a b

/-- 7.1.2 step 3: decode the encoded message `em`; `none` is "decryption error". -/
def oaepDecode (hash : Bytes → Bytes) (em : Bytes) : Option Bytes :=
  if em.length < 2 * 20 + 2 then none
  else
    let y := em.take 1
    let maskedSeed := (em.drop 1).take 20
    let maskedDb := em.drop 21
    let seed := xor maskedSeed (mgf1 hash maskedDb 20)
    let db := xor maskedDb (mgf1 hash seed (em.length - 21))
    if y ≠ [0] then none
    else if db.take 20 ≠ hash [] then none
    else
      match (db.drop 20).dropWhile (· == 0) with
      | b :: message => if b = 1 then some message else none
      | [] => none

end Verif.Spec

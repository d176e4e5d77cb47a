import Verif.Spec.Rsa

/-!
# Encoding an RSA public key: DER (X.690), PKCS#1 and SubjectPublicKeyInfo, base64 (RFC 4648), PEM

Written from the standards, for any modulus and exponent.
-/

namespace Verif.Spec

/-- DER length octets: short form below 128, otherwise the number of octets and the length. -/
def derLength (n : Nat) : Bytes :=
  if n < 128 then [UInt8.ofNat n] else UInt8.ofNat (128 + octets n) :: i2osp (octets n) n

/-- tag, length, content. -/
def tlv (tag : UInt8) (content : Bytes) : Bytes := tag :: derLength content.length ++ content

def bitLength (n : Nat) : Nat := if n = 0 then 0 else Nat.log2 n + 1

/-- the content of a nonnegative INTEGER: the shortest two's complement form, whose top bit is 0. -/
def derInteger (n : Nat) : Bytes := tlv 0x02 (i2osp (bitLength n / 8 + 1) n)

/-- RFC 8017 A.1.1 `RSAPublicKey`. -/
def pkcs1 (modulus exponent : Nat) : Bytes := tlv 0x30 (derInteger modulus ++ derInteger exponent)

/-- RFC 5280 `SubjectPublicKeyInfo` with the algorithm `rsaEncryption` (1.2.840.113549.1.1.1, NULL). -/
def spki (modulus exponent : Nat) : Bytes :=
  tlv 0x30 (tlv 0x30 [0x06, 0x09, 0x2A, 0x86, 0x48, 0x86, 0xF7, 0x0D, 0x01, 0x01, 0x01, 0x05, 0x00] ++
    tlv 0x03 (0 :: pkcs1 modulus exponent))

def text (s : String) : Bytes := s.toList.map fun c => UInt8.ofNat c.toNat

def b64Alphabet : Bytes := text "ABCDEFGHIJKLMNOPQRSTUVWXYZabcdefghijklmnopqrstuvwxyz0123456789+/"

def b64Char (v : Nat) : UInt8 := b64Alphabet.getD v 0

/-- RFC 4648 section 4. -/
def b64Encode : Bytes → Bytes
  | [] => []
  | [a] => [b64Char (a.toNat / 4), b64Char (a.toNat % 4 * 16), 61, 61]
  | [a, b] =>
    [b64Char (a.toNat / 4), b64Char (a.toNat % 4 * 16 + b.toNat / 16), b64Char (b.toNat % 16 * 4), 61]
  | a :: b :: c :: r =>
    b64Char (a.toNat / 4) :: b64Char (a.toNat % 4 * 16 + b.toNat / 16) ::
      b64Char (b.toNat % 16 * 4 + c.toNat / 64) :: b64Char (c.toNat % 64) :: b64Encode r

/-- space, tab, line feed, vertical tab, form feed, carriage return. -/
def isSpace (b : UInt8) : Bool := b ∈ ([0x20, 0x09, 0x0A, 0x0B, 0x0C, 0x0D] : Bytes)

/-- the same text up to white space. -/
def SameText (a b : Bytes) : Prop := a.filter (!isSpace ·) = b.filter (!isSpace ·)

/-- the two kinds of text, without line breaks. -/
def pemPkcs1 (modulus exponent : Nat) : Bytes :=
  text "-----BEGIN RSA PUBLIC KEY-----" ++ b64Encode (pkcs1 modulus exponent) ++
    text "-----END RSA PUBLIC KEY-----"

def pemSpki (modulus exponent : Nat) : Bytes :=
  text "-----BEGIN PUBLIC KEY-----" ++ b64Encode (spki modulus exponent) ++
    text "-----END PUBLIC KEY-----"

end Verif.Spec

import Verif.Model.Io

/-!
# Public keys, RSA and OAEP

Mirrors `src/utils/crypt.rs` and `src/utils/scramble.rs`.

The hash functions (crates `sha1`, `sha2`) are parameters; big integers (crate `num`) are natural
numbers; base64 (crate `base64`, engine `STANDARD`) is modelled below.  Slicing out of range, integer
underflow and a zero modulus are panics.
-/

namespace Verif

/-- the digests used; the theorems that need it assume 20 and 32 byte outputs. -/
structure Hashes where
  sha1 : Bytes → Bytes
  sha256 : Bytes → Bytes

/-- `BigUint::from_bytes_be`, `usize::from_be_bytes`. -/
def beNat (bs : Bytes) : Nat := bs.foldl (fun n b => n * 256 + b.toNat) 0

/-- the bytes of a positive number, most significant first, without leading zero; fuel `n`. -/
def beBytesLoop : Nat → Nat → Bytes → Bytes
  | 0, _, acc => acc
  | fuel + 1, n, acc =>
    if n = 0 then acc else beBytesLoop fuel (n / 256) (UInt8.ofNat (n % 256) :: acc)

/-- `BigUint::to_bytes_be` (zero is one zero byte). -/
def toBytesBe (n : Nat) : Bytes := if n = 0 then [0] else beBytesLoop n n []

/-- `BigUint::bits`. -/
def natBits (n : Nat) : Nat := if n = 0 then 0 else n.log2 + 1

/-- `u32::to_be_bytes`. -/
def be32 (n : Nat) : Bytes := (leBytes 4 n).reverse

/-! ### DER -/

/-- functions on `&mut &[u8]` in `mod der`. -/
abbrev D := SM Bytes CryptError

/-- crypt.rs 20-36 `eat_len`. -/
def derLen : D Nat := fun s =>
  match s with
  | [] => (.panic, s)
  | b :: r =>
    if b &&& 0x80 = 0x80 then
      let len := (b &&& 0x7F).toNat
      if len > 8 then (.err .invalidPem, s)
      else if r.length < len then (.panic, s)
      else (.ok (beNat (r.take len)), r.drop len)
    else (.ok b.toNat, r)

/-- crypt.rs 39-42, 50-53, 61-64: the tag byte. -/
def derTag (t : UInt8) : D Unit := fun s =>
  match s with
  | [] => (.panic, s)
  | b :: r => if b ≠ t then (.err .invalidPem, s) else (.ok (), r)

/-- crypt.rs 44-45, 55-56: `&der[..len]`. -/
def derTake (len : Nat) : D Bytes := fun s =>
  if s.length < len then (.panic, s) else (.ok (s.take len), s.drop len)

/-- crypt.rs 38-47 `eat_uint`. -/
def derUint : D Nat := do
  derTag 0x02
  let len ← derLen
  let bs ← derTake len
  pure (beNat bs)

/-- crypt.rs 49-58 `eat_sequence`. -/
def derSequence : D Bytes := do
  derTag 0x30
  let len ← derLen
  derTake len

/-- crypt.rs 66-69: `der[0]`, `&der[1..len]` (panics for `len = 0` too), `&der[len..]`. -/
def derBits (len : Nat) : D (UInt8 × Bytes) := fun s =>
  match s with
  | [] => (.panic, s)
  | b :: r =>
    if len = 0 ∨ r.length + 1 < len then (.panic, s)
    else (.ok (b, r.take (len - 1)), r.drop (len - 1))

/-- crypt.rs 60-70 `eat_bit_string`. -/
def derBitString : D (UInt8 × Bytes) := do
  derTag 0x03
  let len ← derLen
  derBits len

/-- crypt.rs 73-78 `try_from_pkcs1`. -/
def tryFromPkcs1 (der : Bytes) : Out CryptError PublicKey :=
  (derSequence der).1 >>= fun body =>
    ((do let m ← derUint
         let e ← derUint
         pure { modulus := m, exponent := e } : D PublicKey) body).1

/-- crypt.rs 80-88 `try_from_pkcs8`. -/
def tryFromPkcs8 (der : Bytes) : Out CryptError PublicKey :=
  (derSequence der).1 >>= fun seqData =>
    ((do let _ ← derSequence
         derBitString : D (UInt8 × Bytes)) seqData).1 >>= fun p =>
      if p.1 ≠ 0 then .err .invalidPem else tryFromPkcs1 p.2

/-! ### base64 -/

/-- the standard alphabet. -/
def b64Val (b : UInt8) : Option Nat :=
  let n := b.toNat
  if 65 ≤ n ∧ n ≤ 90 then some (n - 65)
  else if 97 ≤ n ∧ n ≤ 122 then some (n - 97 + 26)
  else if 48 ≤ n ∧ n ≤ 57 then some (n - 48 + 52)
  else if n = 43 then some 62
  else if n = 47 then some 63
  else none

/-- `STANDARD.decode`: groups of four, canonical padding required, no stray bits, nothing else. -/
def b64Decode : Bytes → Option Bytes
  | [] => some []
  | a :: b :: c :: d :: r => do
    let x ← b64Val a
    let y ← b64Val b
    if c = 61 then
      if d = 61 ∧ r = [] ∧ y % 16 = 0 then pure [UInt8.ofNat (x * 4 + y / 16)] else none
    else do
      let z ← b64Val c
      if d = 61 then
        if r = [] ∧ z % 4 = 0 then
          pure [UInt8.ofNat (x * 4 + y / 16), UInt8.ofNat (y % 16 * 16 + z / 4)]
        else none
      else do
        let w ← b64Val d
        let rest ← b64Decode r
        pure (UInt8.ofNat (x * 4 + y / 16) :: UInt8.ofNat (y % 16 * 16 + z / 4) ::
          UInt8.ofNat (z % 4 * 64 + w) :: rest)
  | _ => none

/-! ### PEM -/

/-- an ASCII literal `b"…"`. -/
def ascii (s : String) : Bytes := s.toList.map fun c => UInt8.ofNat c.toNat

/-- crypt.rs 97: the bytes that are removed. -/
def pemSpace (b : UInt8) : Bool :=
  b == 0x20 || b == 0x0A || b == 0x09 || b == 0x0D || b == 0x0B || b == 0x0C

def pkcs1Begin : Bytes := ascii "-----BEGINRSAPUBLICKEY-----"
def pkcs1End : Bytes := ascii "-----ENDRSAPUBLICKEY-----"
def pkcs8Begin : Bytes := ascii "-----BEGINPUBLICKEY-----"
def pkcs8End : Bytes := ascii "-----ENDPUBLICKEY-----"

/-- crypt.rs 102, 104: `&pem[start..pem.len() - end]`; panics if the markers overlap. -/
def pemBody (pem b e : Bytes) : Out CryptError Bytes :=
  if pem.length - e.length < b.length then .panic
  else .ok ((pem.take (pem.length - e.length)).drop b.length)

/-- crypt.rs 90-114 `try_from_pem`. -/
def tryFromPem (pem : Bytes) : Out CryptError PublicKey :=
  let pem := pem.filter (fun b => !pemSpace b)
  let sel : Out CryptError (Bytes × Bool) :=
    if pkcs1Begin.isPrefixOf pem ∧ pkcs1End.isSuffixOf pem then
      (pemBody pem pkcs1Begin pkcs1End).map' (·, true)
    else if pkcs8Begin.isPrefixOf pem ∧ pkcs8End.isSuffixOf pem then
      (pemBody pem pkcs8Begin pkcs8End).map' (·, false)
    else .err .invalidPem
  sel >>= fun p =>
    match b64Decode p.1 with
    | none => .err .invalidPem
    | some body => if p.2 then tryFromPkcs1 body else tryFromPkcs8 body

/-! ### RSA with OAEP padding -/

/-- scramble.rs 3-12 `xor` (the result is as long as the left argument), crypt.rs 236-243. -/
def xorBytes : Bytes → Bytes → Bytes
  | a :: as, b :: bs => (a ^^^ b) :: xorBytes as bs
  | as, _ => as

/-- crypt.rs 165. -/
def HASH_LEN : Nat := 20

/-- crypt.rs 171-194 `mgf1`: blocks `0 .. len / 20`, then the rest of one more block
(`copy_from_slice` fits because a digest has 20 bytes). -/
def mgf1 (h : Hashes) (seed : Bytes) (len : Nat) : Out CryptError Bytes :=
  if len > HASH_LEN * 2 ^ 32 then .err .messageTooLong
  else
    let full := (List.range (len / HASH_LEN)).flatMap fun i => h.sha1 (seed ++ be32 i)
    let remaining := len % HASH_LEN
    if remaining > 0 then .ok (full ++ (h.sha1 (seed ++ be32 (len / HASH_LEN))).take remaining)
    else .ok full

/-- crypt.rs 214-246 `pad`; `seed` is what the random generator yields (20 bytes). -/
def oaepPad (h : Hashes) (seed : Bytes) (data : Bytes) (n : Nat) : Out CryptError Bytes :=
  if n < 1 + HASH_LEN + HASH_LEN + 2 + 1 + data.length then .err .messageTooLong
  else
    let msgLen := n - HASH_LEN - 1
    let fillingLen := msgLen - data.length
    let msg := h.sha1 [] ++ List.replicate (fillingLen - 1 - HASH_LEN) 0 ++ [1] ++ data
    mgf1 h seed msg.length >>= fun msgMask =>
      let msg := xorBytes msg msgMask
      mgf1 h msg HASH_LEN >>= fun seedMask =>
        .ok (0 :: xorBytes seed seedMask ++ msg)

/-- crypt.rs 129-131 `num_octets`. -/
def PublicKey.numOctets (k : PublicKey) : Nat := (natBits k.modulus + 6) / 8

/-- crypt.rs 141-157 `encrypt_padded`: `modpow` panics for a zero modulus, `octets - len`
underflows if the result is longer than `octets`. -/
def PublicKey.encryptPadded (h : Hashes) (seed : Bytes) (k : PublicKey) (data : Bytes) :
    Out CryptError Bytes :=
  let octets := k.numOctets
  oaepPad h seed data octets >>= fun padded =>
    if k.modulus = 0 then .panic
    else
      let encrypted := toBytesBe (beNat padded ^ k.exponent % k.modulus)
      if octets < encrypted.length then .panic
      else .ok (List.replicate (octets - encrypted.length) 0 ++ encrypted)

/-! ### Challenge responses (scramble.rs) -/

/-- scramble.rs 15-32 `scramble_native`. -/
def scrambleNative (h : Hashes) (nonce password : Bytes) : Option Bytes :=
  if password = [] then none
  else some (xorBytes (h.sha1 password) (h.sha1 (nonce ++ h.sha1 (h.sha1 password))))

/-- scramble.rs 37-54 `scramble_sha256`. -/
def scrambleSha256 (h : Hashes) (nonce password : Bytes) : Option Bytes :=
  if password = [] then none
  else some (xorBytes (h.sha256 password) (h.sha256 (h.sha256 (h.sha256 password) ++ nonce)))

end Verif

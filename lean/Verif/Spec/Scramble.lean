import Verif.Spec.Oaep

/-!
# Spec: how a server checks a challenge response

The server knows only the double hash of the password.
-/

namespace Verif.Spec

/-- what the server stores of a password. -/
def stored (hash : Bytes → Bytes) (password : Bytes) : Bytes := hash (hash password)

/-- `mysql_native_password`: the server (`check_scramble`) knows only the double hash; it unmasks the
response with the hash of nonce and double hash and hashes the result once more. -/
def nativeAccepts (sha1 : Bytes → Bytes) (nonce known response : Bytes) : Prop :=
  response.length = 20 ∧ sha1 (xor response (sha1 (nonce ++ known))) = known

/-- `caching_sha2_password` (`Validate_scramble`): the same with SHA-256 and the double hash first. -/
def sha2Accepts (sha256 : Bytes → Bytes) (nonce known response : Bytes) : Prop :=
  response.length = 32 ∧ sha256 (xor response (sha256 (known ++ nonce))) = known

instance (sha1 : Bytes → Bytes) (nonce known response : Bytes) :
    Decidable (nativeAccepts sha1 nonce known response) := by
  unfold nativeAccepts; infer_instance

instance (sha256 : Bytes → Bytes) (nonce known response : Bytes) :
    Decidable (sha2Accepts sha256 nonce known response) := by
  unfold sha2Accepts; infer_instance

end Verif.Spec

import Verif.Model.Auth
import Verif.Proofs.Xor
import Verif.Spec.Scramble

/-!
# C31 A correct password always passes the server's check
-/

namespace Verif

/-- **C31** (native): for every hash function with 20-byte digests, every nonce and every nonempty
password the response exists and passes the server's check. -/
theorem C31_native (h : Hashes) (h1 : ∀ x, (h.sha1 x).length = 20) (nonce password : Bytes)
    (hp : password ≠ []) :
    ∃ r, scrambleNative h nonce password = some r ∧
      Spec.nativeAccepts h.sha1 nonce (Spec.stored h.sha1 password) r := by
  have hl : (h.sha1 password).length = (h.sha1 (nonce ++ h.sha1 (h.sha1 password))).length := by
    rw [h1, h1]
  refine ⟨_, by unfold scrambleNative; rw [if_neg hp], ?_, ?_⟩
  · rw [xorBytes_eq_xor hl, Spec.length_xor hl, h1]
  · rw [xorBytes_eq_xor hl]
    unfold Spec.stored
    rw [Spec.xor_cancel hl]

/-- **C31** (SHA-2): likewise for 32-byte digests. -/
theorem C31_sha2 (h : Hashes) (h2 : ∀ x, (h.sha256 x).length = 32) (nonce password : Bytes)
    (hp : password ≠ []) :
    ∃ r, scrambleSha256 h nonce password = some r ∧
      Spec.sha2Accepts h.sha256 nonce (Spec.stored h.sha256 password) r := by
  have hl : (h.sha256 password).length =
      (h.sha256 (h.sha256 (h.sha256 password) ++ nonce)).length := by
    rw [h2, h2]
  refine ⟨_, by unfold scrambleSha256; rw [if_neg hp], ?_, ?_⟩
  · rw [xorBytes_eq_xor hl, Spec.length_xor hl, h2]
  · rw [xorBytes_eq_xor hl]
    unfold Spec.stored
    rw [Spec.xor_cancel hl]

/-- **C31** (empty password): no response is computed; what is sent is empty (both in the login
request and after a switch, where an empty packet is written). -/
theorem C31_empty (cr : Crypto) (nonce : Bytes) (p : AuthPlugin) (o : Options) (hp : p ≠ .clear)
    (hf : o.authPlugin = none ∨ o.authPlugin = some p) :
    p.genData cr [] nonce o = .ok none := by
  unfold AuthPlugin.genData
  rcases hf with hf | hf
  · rw [hf]
    cases p with
    | clear => exact absurd rfl hp
    | native => rfl
    | sha2 => rfl
  · rw [hf]
    cases p with
    | clear => exact absurd rfl hp
    | native => simp [scrambleNative]
    | sha2 => simp [scrambleSha256]

/-- the check is not trivial: with a toy hash that sees its input, a wrong password is rejected. -/
example :
    let h : Bytes → Bytes := fun x => (x ++ List.replicate 20 7).take 20 |>.reverse
    ∃ r, scrambleNative { sha1 := h, sha256 := h } [9] (ascii "right") = some r ∧
      Spec.nativeAccepts h [9] (Spec.stored h (ascii "right")) r ∧
      ¬ Spec.nativeAccepts h [9] (Spec.stored h (ascii "wrong")) r := by
  refine ⟨_, rfl, ?_, ?_⟩ <;> unfold Spec.nativeAccepts <;> decide +kernel

end Verif

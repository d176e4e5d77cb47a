import Verif.Model.Auth
import Verif.Spec.Packet

/-!
# Spec: what a client may say while it authenticates

The payloads allowed for each plugin, as the protocol documentation lists them.  The challenge
responses themselves are characterised by the server's check (C31) and the RSA block by the key
owner's decryption (C33, C34).
-/

namespace Verif.Spec

/-- the bytes of several packets, each with the sequence number of its first frame. -/
def wire (ps : List (UInt8 × Bytes)) : Bytes := ps.flatMap fun p => frames p.1 p.2

/-- answers that reveal the password only through a digest or an encryption. `login…` is the
handshake response, `switch…` the answer to an authentication switch request. -/
inductive Answer (cr : Crypto) (o : Options) : AuthPlugin → Bytes → Prop
  | loginNative (nonce : Bytes) (v : UInt16 × UInt16 × UInt16) (caps mx : UInt32) :
      Answer cr o .native (handshakeResponse
        ((scrambleNative cr.toHashes nonce (utf8 o.password)).getD []) v (utf8 o.user) (o.dbName.map utf8)
        (some .native) caps mx)
  | loginSha2 (nonce : Bytes) (v : UInt16 × UInt16 × UInt16) (caps mx : UInt32) :
      Answer cr o .sha2 (handshakeResponse
        ((scrambleSha256 cr.toHashes nonce (utf8 o.password)).getD []) v (utf8 o.user) (o.dbName.map utf8)
        (some .sha2) caps mx)
  | switchNative (nonce : Bytes) :
      Answer cr o .native ((scrambleNative cr.toHashes nonce (utf8 o.password)).getD [])
  | switchSha2 (nonce : Bytes) :
      Answer cr o .sha2 ((scrambleSha256 cr.toHashes nonce (utf8 o.password)).getD [])
  | keyRequest : Answer cr o .sha2 [2]
  | encrypted (key : PublicKey) (nonce x enc : Bytes)
      (hx : xorNonce (utf8 o.password ++ [0]) nonce = .ok x)
      (he : cr.rsa key x = .ok enc) : Answer cr o .sha2 enc

/-- answers that contain the password itself. -/
inductive ClearAnswer (o : Options) : AuthPlugin → Bytes → Prop
  | login (v : UInt16 × UInt16 × UInt16) (caps mx : UInt32) :
      ClearAnswer o .clear (handshakeResponse (utf8 o.password) v (utf8 o.user)
        (o.dbName.map utf8) (some .clear) caps mx)
  | switch : ClearAnswer o .clear (utf8 o.password ++ [0])
  | secure : ClearAnswer o .sha2 (utf8 o.password ++ [0])

theorem ClearAnswer.plugin {o : Options} {p : AuthPlugin} {b : Bytes} (h : ClearAnswer o p b) :
    p = .clear ∨ p = .sha2 := by
  generalize b = b' at h
  cases h
  · exact .inl rfl
  · exact .inl rfl
  · exact .inr rfl

/-- what may be sent for plugin `p`: clear answers of the clear plugin only if allowed, of the SHA-2
plugin only on a secure stream. -/
def Permitted (cr : Crypto) (o : Options) (p : AuthPlugin) (b : Bytes) : Prop :=
  Answer cr o p b ∨
    (ClearAnswer o p b ∧ (p = .clear → o.allowCleartext = true) ∧ (p = .sha2 → o.secure = true))

/-- `n` or fewer attempts to read a packet lead from tape `r` to tape `r'`. -/
inductive ReadSteps : Nat → List Rx → List Rx → Prop
  | none {n : Nat} {r : List Rx} : ReadSteps n r r
  | step {n : Nat} {c : Conn} {r' : List Rx} (h : ReadSteps n (readPacket c).2.rx r') :
      ReadSteps (n + 1) c.rx r'

end Verif.Spec

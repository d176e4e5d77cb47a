import Verif.Proofs.Auth
import Verif.Proofs.AuthBlind

/-!
# C28 The password is never sent in clear without permission
-/

namespace Verif

/-- **C28** (non-interference).  On a stream that is not secure and with cleartext passwords not
allowed: for every handshake, every switch request and every other answer of the server (`rx` is any
byte stream with any failures), two passwords with the same challenge responses and encryptions lead
to the same result and the same bytes written, in `connect` as a whole. -/
theorem C28_only_through_digests (cr : Crypto) (alnum : Char → Bool) (fp : FloatParse)
    (o : Options) (p₁ p₂ : Str) (rx : List Rx) (wf : List (Option (Nat × IoKind)))
    (hsec : o.secure = false) (hclear : o.allowCleartext = false)
    (hs : SameAnswers cr p₁ p₂) :
    (connect cr alnum fp (Conn.initial { o with password := p₁ } rx wf)).2.tx =
      (connect cr alnum fp (Conn.initial { o with password := p₂ } rx wf)).2.tx ∧
    (connect cr alnum fp (Conn.initial { o with password := p₁ } rx wf)).1 =
      (connect cr alnum fp (Conn.initial { o with password := p₂ } rx wf)).1 := by
  have hsim : Sim o p₁ p₂ (connect cr alnum fp) :=
    Sim.bind (Sim.login hs hclear hsec alnum) fun _ => Sim.readSettings fp
  obtain ⟨h1, h2⟩ := hsim (Conn.initial { o with password := p₁ } rx wf)
    (Conn.initial { o with password := p₂ } rx wf) ⟨rfl, rfl⟩
  refine ⟨?_, h1⟩
  rw [h2.2]

/-- **C28** (the messages themselves).  Everything written while logging in is a sequence of packets
(the last one possibly cut off by a write failure) each of which is a challenge response, a login
request carrying one, a key request or an RSA block: none of the clear answers. -/
theorem C28_messages (cr : Crypto) (alnum : Char → Bool) (c : Conn)
    (hsec : c.options.secure = false) (hclear : c.options.allowCleartext = false) :
    ∃ (ps : List (UInt8 × Bytes)) (t : Bytes),
      (∀ p ∈ ps, ∃ plugin, Spec.Answer cr c.options plugin p.2) ∧
      (login cr alnum c).2.tx = c.tx ++ t ∧ t <+: Spec.wire ps := by
  obtain ⟨_, _, ps, t, _, h4, h5, h6, _⟩ := Talks.login (cr := cr) alnum c rfl
  refine ⟨ps, t, fun p hp => ?_, h5, h6⟩
  obtain ⟨pl, _, hpl⟩ := h4 p hp
  rcases hpl with hpl | ⟨hpl, h7, h8⟩
  · exact ⟨pl, hpl⟩
  · rcases hpl.plugin with rfl | rfl
    · rw [hclear] at h7; exact absurd (h7 rfl) (by simp)
    · rw [hsec] at h8; exact absurd (h8 rfl) (by simp)

/-- Even with permission, the password goes out in clear only as an answer of the clear plugin (if
cleartext passwords are allowed) or of the SHA-2 plugin on a secure stream. -/
theorem C28_permission (cr : Crypto) (alnum : Char → Bool) (c : Conn) :
    ∃ (ps : List (UInt8 × Bytes)) (t : Bytes),
      (∀ p ∈ ps, ∃ plugin, Spec.Permitted cr c.options plugin p.2) ∧
      (login cr alnum c).2.tx = c.tx ++ t ∧ t <+: Spec.wire ps := by
  obtain ⟨_, _, ps, t, _, h4, h5, h6, _⟩ := Talks.login (cr := cr) alnum c rfl
  refine ⟨ps, t, fun p hp => ?_, h5, h6⟩
  obtain ⟨pl, _, hpl⟩ := h4 p hp
  exact ⟨pl, hpl⟩

/-! ### Concrete case: a server that asks for the clear password -/

namespace C28

/-- toy functions that only see the length of their argument. -/
def crypto : Crypto :=
  { sha1 := fun bs => List.replicate 20 (UInt8.ofNat bs.length)
    sha256 := fun bs => List.replicate 32 (UInt8.ofNat bs.length)
    rsa := fun _ x => .ok (List.replicate 128 (UInt8.ofNat x.length)) }

def opts : Options :=
  { user := "u".toList
    password := "hunter2".toList
    dbName := none
    maxAllowedPacket := some 1000
    allowCleartext := false
    authPlugin := none
    serverKey := none
    secure := false }

def handshake : Bytes :=
  [10] ++ ascii "8.0.1" ++ [0] ++ [1, 0, 0, 0] ++ [1, 2, 3, 4, 5, 6, 7, 8] ++ [0] ++
  [0x00, 0x82] ++ [45] ++ [2, 0] ++ [0x08, 0x00] ++ [21] ++ List.replicate 10 0 ++
  [9, 10, 11, 12, 13, 14, 15, 16, 17, 18, 19, 20, 0] ++ ascii "mysql_native_password" ++ [0]

def switchClear : Bytes := [0xFE] ++ ascii "mysql_clear_password" ++ [0]

def asciiAlnum (c : Char) : Bool := c.isAlphanum

def run (o : Options) : Out Error Unit × Conn :=
  login crypto asciiAlnum
    (Conn.initial o (rxOf (Spec.frames 0 handshake ++ Spec.frames 2 switchClear)) [])

end C28

/-- the switch to the clear plugin is refused; only the login request has been sent. -/
example : (C28.run C28.opts).1 = .err (.runtime .insecureAuth) ∧
    (C28.run C28.opts).2.tx.length = 4 + 32 + 2 + 21 + 22 := by
  decide +kernel

/-- with permission the same server gets the password. -/
example : (C28.run { C28.opts with allowCleartext := true }).2.tx.drop (4 + 32 + 2 + 21 + 22) =
    Spec.frames 3 (ascii "hunter2" ++ [0]) := by
  decide +kernel

theorem C28.length_xorBytes (a b : Bytes) : (xorBytes a b).length = a.length := by
  induction a generalizing b with
  | nil => rfl
  | cons x a ih =>
    cases b with
    | nil => rfl
    | cons y b => simp [xorBytes, ih]

/-- the hypothesis of `C28_only_through_digests` is satisfiable with different passwords. -/
example : SameAnswers C28.crypto "hunter2".toList "secret!".toList := by
  refine ⟨fun _ => ?_, fun _ => ?_, fun key nonce => ?_⟩
  · rfl
  · rfl
  · unfold xorNonce
    split
    · rfl
    · simp only [Out.ok_bind, C28.crypto, C28.length_xorBytes]
      rfl

end Verif

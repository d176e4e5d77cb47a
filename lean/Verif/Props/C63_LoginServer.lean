import Verif.Props.C29_ForcedPlugin
import Verif.Props.C31_Scramble
import Verif.Props.C34_Rsa
import Verif.Props.C35_Pem
import Verif.Props.C36_Handshake
import Verif.Props.C37_Login
import Verif.Spec.Login

/-!
# C63 Logging in ends as the server decides, and the right password is accepted
-/

namespace Verif

/-- the key of a server: two primes, a private exponent, and a text of the public key; the bit length
of the modulus is not 1 mod 8 (C34), the message fits. -/
structure Spec.LoginServer.KeyFits (S : Spec.LoginServer) (e : Nat) (messageLength : Nat) : Prop where
  primes : ∃ p q, p.Prime ∧ q.Prime ∧ p ≠ q ∧ S.modulus = p * q ∧
    ∃ j, e * S.private_ = 1 + j * Nat.lcm (p - 1) (q - 1)
  bits : natBits S.modulus % 8 ≠ 1
  fits : messageLength + 44 ≤ Spec.octets S.modulus
  small : Spec.octets S.modulus ≤ 20 * 2 ^ 32 + 21
  text : ((Spec.pkcs1 S.modulus e).length < 2 ^ 64 ∧
      Spec.SameText S.keyText (Spec.pemPkcs1 S.modulus e)) ∨
    ((Spec.spki S.modulus e).length < 2 ^ 64 ∧ Spec.SameText S.keyText (Spec.pemSpki S.modulus e))

/-- what is assumed of the two sides: they use the same hash functions, agree on whether the transport
is secure, the caller has not fixed another plugin than the account's nor another key, and has
allowed clear text where it is asked for. -/
structure Compatible (S : Spec.LoginServer) (o : Options) (h : Hashes) (code : UInt16) (state msg : Str)
    (e : Nat) : Prop where
  sha1 : S.sha1 = h.sha1
  sha256 : S.sha256 = h.sha256
  size1 : ∀ x, (h.sha1 x).length = 20
  size2 : ∀ x, (h.sha256 x).length = 32
  accept : ∃ r, S.accept = 0x00 :: r
  refuse : S.refuse = Spec.errPacket code.toNat (some (utf8 state)) msg
  state : (utf8 state).length = 5
  secure : S.secure = o.secure
  challenge2 : S.challenge2 ≠ []
  forced : o.authPlugin = none ∨ o.authPlugin = some S.plugin
  clear : S.plugin = .clear → o.allowCleartext = true
  short : o.allowCleartext = true → (utf8 o.password).length ≤ 255
  known : o.serverKey = none ∨ o.serverKey = some { modulus := S.modulus, exponent := e }
  key : S.plugin = .sha2 → o.secure = false → S.KeyFits e ((utf8 o.password).length + 1)

/-- what the caller gets to know. -/
def verdictResult (code : UInt16) (state msg : Str) (b : Bool) : Out Error Unit :=
  if b then .ok () else .err (.server (.error code (some (utf8 state)) msg))

/-- what logging in leaves as it is. -/
def SameSide (c c' : Conn) : Prop :=
  c'.wfaults = c.wfaults ∧ c'.options = c.options ∧ c'.pendingResult = c.pendingResult ∧
    c'.data.capabilities = c.data.capabilities ∧ c'.data.maxAllowedPacket = c.data.maxAllowedPacket

theorem SameSide.trans {a b c : Conn} (h : SameSide a b) (g : SameSide b c) : SameSide a c := by
  obtain ⟨h1, h2, h3, h4, h5⟩ := h
  obtain ⟨g1, g2, g3, g4, g5⟩ := g
  exact ⟨g1.trans h1, g2.trans h2, g3.trans h3, g4.trans h4, g5.trans h5⟩

section
variable {S : Spec.LoginServer} {h : Hashes} {code : UInt16} {state msg : Str} {e : Nat}

/-- `m` run on `c`, after these packets of the server and then further talk from `phase` on, ends as
the server decides; `right` are the conditions under which it must accept, `exact` is set if it must
refuse otherwise. -/
def Ends (S : Spec.LoginServer) (code : UInt16) (state msg : Str) (m : M Unit) (c : Conn)
    (replies : List Bytes) (phase : Spec.LoginPhase) (right exact : Prop) : Prop :=
  ∃ ms sb cb b, S.talk phase (Spec.seqAfter c.seqId replies) ms = some (sb, cb, b) ∧
    (right → b = true) ∧ (exact → b = true → right) ∧
    ∀ r, ∃ c', m { c with rx := rxOf (Spec.framesAll c.seqId replies ++ sb) ++ r } =
        (verdictResult code state msg b, c') ∧
      c'.tx = c.tx ++ cb ∧ c'.rx = r ∧ SameSide c c'

/-- a connection on which protocol 4.1 was negotiated and nothing of MariaDB's progress reports. -/
def Negotiated (c : Conn) : Prop :=
  hasFlag32 c.data.capabilities Cap.PROTOCOL_41 = true ∧
    hasFlag32 c.data.capabilities Cap.PROGRESS_OBSOLETE = false

theorem refuse_packet {o : Options} (hc : Compatible S o h code state msg e) (c : Conn)
    (hn : Negotiated c) :
    runP (ErrPacket.deserialize c.data.capabilities) S.refuse =
      .ok (.error code (some (utf8 state)) msg) := by
  have := errPacket_spec c.data.capabilities code state msg hc.state (.inr hn.2)
  rw [hn.1] at this
  rw [hc.refuse]
  exact this

theorem talk_over (b : Bool) (q : UInt8) : S.talk (.over b) q [] = some ([], [], b) := by
  simp [Spec.LoginServer.talk]

theorem talk_cons (phase : Spec.LoginPhase) (hp : ∀ b, phase ≠ .over b) (q : UInt8) (m : Bytes)
    (ms : List Bytes) :
    S.talk phase q (m :: ms) =
      (S.talk (S.react phase m).2 (Spec.seqAfter (q + UInt8.ofNat (Spec.frameCount m))
        (S.react phase m).1) ms).map fun t =>
        (Spec.framesAll (q + UInt8.ofNat (Spec.frameCount m)) (S.react phase m).1 ++ t.1,
          Spec.frames q m ++ t.2.1, t.2.2) := by
  cases phase <;> first | exact absurd rfl (hp _) | rfl

/-- the client writes a message and goes on with the reaction. -/
theorem Ends.message {m : M Unit} {k : M Unit}
    {c : Conn} {phase : Spec.LoginPhase} {right exact : Prop} (msg' : Bytes) (c1 : Conn)
    (hph : ∀ b, phase ≠ .over b)
    (hrun : ∀ rx, m { c with rx := rx } = k { c1 with rx := rx })
    (htx : c1.tx = c.tx ++ Spec.frames c.seqId msg')
    (hseq : c1.seqId = c.seqId + UInt8.ofNat (Spec.frameCount msg'))
    (hside : SameSide c c1)
    (he : Ends S code state msg k c1 (S.react phase msg').1 (S.react phase msg').2 right exact) :
    Ends S code state msg m c [] phase right exact := by
  obtain ⟨ms, sb, cb, b, h1, h2, h3, h4⟩ := he
  rw [hseq] at h1
  refine ⟨msg' :: ms, Spec.framesAll (c.seqId + UInt8.ofNat (Spec.frameCount msg'))
    (S.react phase msg').1 ++ sb, Spec.frames c.seqId msg' ++ cb, b, ?_, h2, h3, ?_⟩
  · show S.talk phase c.seqId _ = _
    rw [talk_cons phase hph, h1]
    rfl
  · intro r
    obtain ⟨c', g1, g2, g3, g4⟩ := h4 r
    refine ⟨c', ?_, ?_, g3, hside.trans g4⟩
    · rw [hrun, ← g1, hseq]
      rfl
    · rw [g2, htx, List.append_assoc]

/-- the last packet, read as the final answer. -/
theorem readVerdict_ends {o : Options} (hc : Compatible S o h code state msg e) (c : Conn)
    (hn : Negotiated c) (b : Bool) {right exact : Prop} (h1 : right → b = true)
    (h2 : exact → b = true → right) :
    Ends S code state msg readVerdict c (S.verdict b).1 (S.verdict b).2 right exact := by
  refine ⟨[], [], [], b, talk_over b _, h1, h2, fun r => ?_⟩
  have hr : readPacket { c with rx := rxOf (Spec.framesAll c.seqId (S.verdict b).1 ++ []) ++ r } =
      (.ok (if b then S.accept else S.refuse), { c with
        rx := r
        seqId := c.seqId + UInt8.ofNat (Spec.frameCount (if b then S.accept else S.refuse)) }) := by
    rw [readPacket_frames (if b then S.accept else S.refuse) r]
    simp [Spec.LoginServer.verdict, Spec.framesAll]
  unfold readVerdict
  rw [SM.bind_of_ok hr, SM.get_bind_apply]
  cases b with
  | true =>
    obtain ⟨x, hx⟩ := hc.accept
    simp only [if_true, hx]
    exact ⟨_, rfl, by simp, rfl, rfl, rfl, rfl, rfl, rfl⟩
  | false =>
    have hp := refuse_packet hc c hn
    simp only [Bool.false_eq_true, if_false]
    obtain ⟨t, ht⟩ := errPacket_head code.toNat (some (utf8 state)) msg
    rw [hc.refuse, ht] at hp ⊢
    dsimp only
    rw [if_neg (by decide), if_pos rfl, hp]
    exact ⟨_, rfl, by simp, rfl, rfl, rfl, rfl, rfl, rfl⟩

theorem tryFromPem_key {l : Nat} (hk : S.KeyFits e l) :
    tryFromPem S.keyText = .ok { modulus := S.modulus, exponent := e } := by
  rcases hk.text with ⟨h1, h2⟩ | ⟨h1, h2⟩
  · exact C35_pkcs1 _ _ _ h1 h2
  · exact C35_pkcs8 _ _ _ h1 h2

theorem xorRepeated_cancel (pass nonce : Bytes) :
    Spec.xorRepeated (Spec.xorRepeated pass nonce) nonce = pass := by
  unfold Spec.xorRepeated
  have hl : pass.length = ((List.range pass.length).map fun i => nonce.getD (i % nonce.length) 0).length := by
    simp
  rw [Spec.length_xor hl, Spec.xor_cancel hl]

theorem xorNonce_eq (pass nonce : Bytes) (hn : nonce ≠ []) :
    xorNonce pass nonce = .ok (Spec.xorRepeated pass nonce) := by
  unfold xorNonce
  rw [if_neg hn, xorBytes_eq_xor (by simp)]
  rfl

theorem length_xorRepeated (pass nonce : Bytes) : (Spec.xorRepeated pass nonce).length = pass.length := by
  unfold Spec.xorRepeated
  rw [Spec.length_xor (by simp)]

/-- the encrypted password. -/
theorem encrypted {o : Options} (hc : Compatible S o h code state msg e) (seed : Bytes)
    (hseed : seed.length = 20) (hk : S.KeyFits e ((utf8 o.password).length + 1)) (nonce : Bytes) :
    ∃ enc, PublicKey.encryptPadded h seed { modulus := S.modulus, exponent := e }
        (Spec.xorRepeated (utf8 o.password ++ [0]) nonce) = .ok enc ∧
      S.decrypts nonce enc = decide (utf8 o.password = S.password) ∧ enc ≠ [2] := by
  obtain ⟨p, q, hp, hq, hpq, hm, hd⟩ := hk.primes
  have hf := hk.fits
  obtain ⟨enc, h1, h2⟩ := C34_decrypts_partial h hc.size1 seed
    (Spec.xorRepeated (utf8 o.password ++ [0]) nonce) p q e S.private_ hseed hp hq hpq hd
    (by rw [← hm]; exact hk.bits) (by rw [length_xorRepeated, ← hm]; simpa using hf)
    (by rw [← hm]; exact hk.small)
  refine ⟨enc, by rw [hm]; exact h1, ?_, ?_⟩
  · unfold Spec.LoginServer.decrypts
    rw [hm, hc.sha1, h2]
    simp only [xorRepeated_cancel, List.append_left_inj]
  · rintro rfl
    unfold Spec.rsaDecrypt at h2
    rw [← hm, if_pos (.inl (by simp; omega))] at h2
    cases h2

/-- the client after it has sent a message. -/
def Conn.sent (c : Conn) (m : Bytes) : Conn :=
  { c with tx := c.tx ++ Spec.frames c.seqId m, seqId := c.seqId + UInt8.ofNat (Spec.frameCount m) }

theorem sameSide_sent (c : Conn) (m : Bytes) : SameSide c (c.sent m) := ⟨rfl, rfl, rfl, rfl, rfl⟩

theorem writePacket_sent (c : Conn) (m : Bytes) (hw : c.wfaults = []) (rx : List Rx) :
    writePacket m { c with rx := rx } = (.ok (), { c.sent m with rx := rx }) := by
  rw [writePacket_ok m { c with rx := rx } hw]
  rfl

/-- full authentication. -/
theorem fullAuth_ends (c : Conn) (hc : Compatible S c.options h code state msg e) (hp : S.plugin = .sha2)
    (seed : Bytes) (hseed : seed.length = 20)
    (hn : Negotiated c) (hw : c.wfaults = [])
    (hnonce : c.data.nonce ≠ []) (hkey : c.data.serverKey = c.options.serverKey) {right exact : Prop}
    (hr : right ↔ utf8 c.options.password = S.password) :
    Ends S code state msg (fullAuth (Crypto.real h seed)) c [] (.password c.data.nonce) right exact := by
  have hr1 : right → decide (utf8 c.options.password = S.password) = true := fun x => by simpa using hr.1 x
  have hr2 : exact → decide (utf8 c.options.password = S.password) = true → right := fun _ x =>
    hr.2 (by simpa using x)
  by_cases hs : c.options.secure = true
  · -- clear text on a secure transport
    refine Ends.message (k := readVerdict) (utf8 c.options.password ++ [0]) (c.sent (utf8 c.options.password ++ [0]))
      (by simp) ?_ rfl rfl (sameSide_sent _ _) ?_
    · intro rx
      unfold fullAuth sendPassword
      have : (do
          let c ← SM.get
          let pass := utf8 c.options.password ++ [0]
          if c.options.secure then writePacket pass
          else do
            let key ← fetchKey
            let c ← SM.get
            let x ← SM.ofOut (xorNonce pass c.data.nonce)
            let enc ← SM.ofOut (((Crypto.real h seed).rsa key x).mapErr
              fun e => .protocol (.serialize (.encryption e)))
            writePacket enc : M Unit) { c with rx := rx } =
          (.ok (), { c.sent (utf8 c.options.password ++ [0]) with rx := rx }) := by
        rw [SM.get_bind_apply]
        simp only [hs, if_true]
        rw [writePacket_sent c _ hw]
      rw [SM.bind_of_ok this]
    · simp only [Spec.LoginServer.react, hc.secure, hs, if_true, List.append_left_inj]
      exact readVerdict_ends hc (c.sent _) hn _ hr1 hr2
  · have hs' : c.options.secure = false := by simpa using hs
    have hk := hc.key hp hs'
    obtain ⟨enc, he1, he2, he3⟩ := encrypted hc seed hseed hk c.data.nonce
    rw [← he2] at hr1 hr2
    -- what is sent once the key is known
    have hsend : ∀ (c1 : Conn) (rx : List Rx), c1.wfaults = [] → c1.data.nonce = c.data.nonce →
        (do
          let k ← SM.get
          let x ← SM.ofOut (xorNonce (utf8 c.options.password ++ [0]) k.data.nonce)
          let enc ← SM.ofOut (((Crypto.real h seed).rsa { modulus := S.modulus, exponent := e } x).mapErr
            fun e => .protocol (.serialize (.encryption e)))
          writePacket enc : M Unit) { c1 with rx := rx } = (.ok (), { c1.sent enc with rx := rx }) := by
      intro c1 rx hw1 hn1
      rw [SM.get_bind_apply]
      dsimp only
      rw [hn1, xorNonce_eq _ _ hnonce, SM.ofOut_ok_bind_apply]
      show ((SM.ofOut ((PublicKey.encryptPadded h seed _ _).mapErr _) >>= _ : M Unit) _) = _
      rw [he1, Out.mapErr_ok, SM.ofOut_ok_bind_apply, writePacket_sent c1 _ hw1]
    rcases hc.known with hnone | hsome
    · -- the key has to be asked for
      rw [hnone] at hkey
      let c1 : Conn := { c.sent [0x02] with
        seqId := c.seqId + 1 + UInt8.ofNat (Spec.frameCount (0x01 :: S.keyText))
        data := { c.data with serverKey := some { modulus := S.modulus, exponent := e } } }
      have hlast : Ends S code state msg (do
          (do
            let k ← SM.get
            let x ← SM.ofOut (xorNonce (utf8 c.options.password ++ [0]) k.data.nonce)
            let enc ← SM.ofOut (((Crypto.real h seed).rsa { modulus := S.modulus, exponent := e } x).mapErr
              fun e => .protocol (.serialize (.encryption e)))
            writePacket enc)
          readVerdict) c1 [] (.encrypted c.data.nonce) right exact := by
        refine Ends.message (k := readVerdict) enc (c1.sent enc) (by simp) ?_ rfl rfl
          (sameSide_sent _ _) ?_
        · intro rx
          rw [SM.bind_of_ok (hsend c1 rx hw rfl)]
        · exact readVerdict_ends hc (c1.sent _) hn _ hr1 hr2
      obtain ⟨ms, sb, cb, b, g1, g2, g3, g4⟩ := hlast
      have hc02 : Spec.frameCount [0x02] = 1 := by decide
      refine ⟨[0x02] :: ms, Spec.frames (c.seqId + 1) (0x01 :: S.keyText) ++ sb,
        Spec.frames c.seqId [0x02] ++ cb, b, ?_, g2, g3, fun r => ?_⟩
      · show S.talk _ c.seqId _ = _
        rw [talk_cons _ (by simp), hc02]
        simp only [Spec.LoginServer.react, hc.secure, hs', Bool.false_eq_true, if_false, if_true,
          Spec.seqAfter, Spec.framesAll]
        have g1' : S.talk (.encrypted c.data.nonce) (c.seqId + 1 + UInt8.ofNat
          (Spec.frameCount (0x01 :: S.keyText))) ms = some (sb, cb, b) := g1
        show (S.talk (.encrypted c.data.nonce) (c.seqId + 1 + UInt8.ofNat
          (Spec.frameCount (0x01 :: S.keyText))) ms).map _ = _
        rw [g1']
        simp
      · obtain ⟨c', k1, k2, k3, k4⟩ := g4 r
        refine ⟨c', ?_, ?_, k3, ?_⟩
        · rw [← k1]
          have hread : readPacket { c.sent [0x02] with rx := rxOf (Spec.frames (c.seqId + 1)
                (0x01 :: S.keyText) ++ sb) ++ r } =
              (.ok (0x01 :: S.keyText), { c.sent [0x02] with
                rx := rxOf sb ++ r
                seqId := c.seqId + 1 + UInt8.ofNat (Spec.frameCount (0x01 :: S.keyText)) }) := by
            have := readPacket_frames (0x01 :: S.keyText) (rxOf sb ++ r)
              { c.sent [0x02] with rx := rxOf (Spec.frames (c.seqId + 1)
                (0x01 :: S.keyText) ++ sb) ++ r } (by
                  simp [Conn.sent, hc02])
            rw [this]
            simp [Conn.sent, hc02]
          have hfetch : fetchKey { c with rx := rxOf (Spec.framesAll c.seqId [] ++
                (Spec.frames (c.seqId + 1) (0x01 :: S.keyText) ++ sb)) ++ r } =
              (.ok { modulus := S.modulus, exponent := e }, { c1 with rx := rxOf sb ++ r }) := by
            unfold fetchKey
            rw [SM.get_bind_apply]
            simp only [hkey]
            rw [SM.bind_of_ok (writePacket_sent c [0x02] hw _)]
            rw [show Spec.framesAll c.seqId [] ++ (Spec.frames (c.seqId + 1) (0x01 :: S.keyText) ++ sb) =
              Spec.frames (c.seqId + 1) (0x01 :: S.keyText) ++ sb from rfl]
            rw [SM.bind_of_ok hread, SM.get_bind_apply]
            dsimp only
            rw [if_pos rfl, tryFromPem_key hk, Out.mapErr_ok, SM.ofOut_ok_bind_apply,
              SM.modify_bind_apply]
            rfl
          unfold fullAuth sendPassword
          have hc1 : (do
              let c ← SM.get
              let pass := utf8 c.options.password ++ [0]
              if c.options.secure then writePacket pass
              else do
                let key ← fetchKey
                let c ← SM.get
                let x ← SM.ofOut (xorNonce pass c.data.nonce)
                let enc ← SM.ofOut (((Crypto.real h seed).rsa key x).mapErr
                  fun e => .protocol (.serialize (.encryption e)))
                writePacket enc : M Unit) { c with rx := rxOf (Spec.framesAll c.seqId [] ++
                  (Spec.frames (c.seqId + 1) (0x01 :: S.keyText) ++ sb)) ++ r } =
              (.ok (), { c1.sent enc with rx := rxOf sb ++ r }) := by
            rw [SM.get_bind_apply]
            simp only [hs', Bool.false_eq_true, if_false]
            rw [SM.bind_of_ok hfetch]
            exact hsend c1 _ hw rfl
          rw [SM.bind_of_ok hc1]
          show _ = (_ >>= _ : M Unit) { c1 with rx := rxOf sb ++ r }
          rw [SM.bind_of_ok (hsend c1 (rxOf sb ++ r) hw rfl)]
        · rw [k2]
          simp [c1, Conn.sent]
        · exact SameSide.trans (b := c1) ⟨rfl, rfl, rfl, rfl, rfl⟩ k4
    · -- the key is known
      rw [hsome] at hkey
      refine Ends.message (k := readVerdict) enc (c.sent enc) (by simp) ?_ rfl rfl
        (sameSide_sent _ _) ?_
      · intro rx
        unfold fullAuth sendPassword
        have hfetch : fetchKey { c with rx := rx } =
            (.ok { modulus := S.modulus, exponent := e }, { c with rx := rx }) := by
          unfold fetchKey
          rw [SM.get_bind_apply]
          simp only [hkey]
          rfl
        have : (do
            let c ← SM.get
            let pass := utf8 c.options.password ++ [0]
            if c.options.secure then writePacket pass
            else do
              let key ← fetchKey
              let c ← SM.get
              let x ← SM.ofOut (xorNonce pass c.data.nonce)
              let enc ← SM.ofOut (((Crypto.real h seed).rsa key x).mapErr
                fun e => .protocol (.serialize (.encryption e)))
              writePacket enc : M Unit) { c with rx := rx } = (.ok (), { c.sent enc with rx := rx }) := by
          rw [SM.get_bind_apply]
          simp only [hs', Bool.false_eq_true, if_false]
          rw [SM.bind_of_ok hfetch]
          exact hsend c _ hw rfl
        rw [SM.bind_of_ok this]
      · simp only [Spec.LoginServer.react, hc.secure, hs', Bool.false_eq_true, if_false, he3]
        exact readVerdict_ends hc (c.sent _) hn _ hr1 hr2

/-- the client reads these packets and goes on. -/
theorem Ends.read {m k : M Unit} {c : Conn} {replies : List Bytes} {phase : Spec.LoginPhase}
    {right exact : Prop} (c1 : Conn)
    (hrun : ∀ rx, m { c with rx := rxOf (Spec.framesAll c.seqId replies) ++ rx } = k { c1 with rx := rx })
    (htx : c1.tx = c.tx) (hseq : c1.seqId = Spec.seqAfter c.seqId replies) (hside : SameSide c c1)
    (he : Ends S code state msg k c1 [] phase right exact) :
    Ends S code state msg m c replies phase right exact := by
  obtain ⟨ms, sb, cb, b, h1, h2, h3, h4⟩ := he
  rw [hseq] at h1
  refine ⟨ms, sb, cb, b, h1, h2, h3, fun r => ?_⟩
  obtain ⟨c', g1, g2, g3, g4⟩ := h4 r
  refine ⟨c', ?_, by rw [g2, htx], g3, hside.trans g4⟩
  rw [rxOf_append, List.append_assoc, hrun, ← g1]
  rfl

/-- the verdict, read while the server may still ask for more. -/
theorem continueAuth_verdict {o : Options} (hc : Compatible S o h code state msg e) (cr : Crypto)
    (n : Nat) (c : Conn) (hn : Negotiated c) (b : Bool) {right exact : Prop} (h1 : right → b = true)
    (h2 : exact → b = true → right) :
    Ends S code state msg (continueAuth cr (n + 1)) c (S.verdict b).1 (S.verdict b).2 right exact := by
  refine ⟨[], [], [], b, talk_over b _, h1, h2, fun r => ?_⟩
  have hr : readPacket { c with rx := rxOf (Spec.framesAll c.seqId (S.verdict b).1 ++ []) ++ r } =
      (.ok (if b then S.accept else S.refuse), { c with
        rx := r
        seqId := c.seqId + UInt8.ofNat (Spec.frameCount (if b then S.accept else S.refuse)) }) := by
    rw [readPacket_frames (if b then S.accept else S.refuse) r]
    simp [Spec.LoginServer.verdict, Spec.framesAll]
  unfold continueAuth
  rw [SM.get_bind_apply]
  dsimp only
  rw [SM.bind_of_ok hr, SM.get_bind_apply]
  cases b with
  | true =>
    obtain ⟨x, hx⟩ := hc.accept
    simp only [if_true, hx]
    exact ⟨_, rfl, by simp, rfl, rfl, rfl, rfl, rfl, rfl⟩
  | false =>
    have hp := refuse_packet hc c hn
    simp only [Bool.false_eq_true, if_false]
    obtain ⟨t, ht⟩ := errPacket_head code.toNat (some (utf8 state)) msg
    rw [hc.refuse, ht] at hp ⊢
    dsimp only
    rw [if_neg (by decide), if_neg (by simp), if_neg (by simp)]
    unfold authFailure
    rw [SM.get_bind_apply]
    dsimp only
    rw [hp]
    exact ⟨_, rfl, by simp, rfl, rfl, rfl, rfl, rfl, rfl⟩

/-- what the client answers to a challenge. -/
def IsResponse (S : Spec.LoginServer) (h : Hashes) (pass nonce resp : Bytes) : Prop :=
  (S.plugin = .clear ∧ (resp = pass ∨ resp = pass ++ [0])) ∨
  (S.plugin = .native ∧ resp = (scrambleNative h nonce pass).getD []) ∨
  (S.plugin = .sha2 ∧ resp = (scrambleSha256 h nonce pass).getD [])

/-- what follows a response of the account's plugin. -/
theorem continueAuth_check (c : Conn) (hc : Compatible S c.options h code state msg e)
    (seed : Bytes) (hseed : seed.length = 20) (n : Nat) (hn : Negotiated c) (hw : c.wfaults = [])
    (hnonce : c.data.nonce ≠ []) (hkey : c.data.serverKey = c.options.serverKey)
    (hpl : c.options.authPlugin.getD c.data.authPlugin = S.plugin) (resp : Bytes)
    (hresp : IsResponse S h (utf8 c.options.password) c.data.nonce resp) :
    Ends S code state msg (continueAuth (Crypto.real h seed) (n + 1)) c
      (S.check c.data.nonce resp).1 (S.check c.data.nonce resp).2
      (utf8 c.options.password = S.password) (S.plugin = .sha2 ∧ S.cached = false) := by
  rcases hresp with ⟨hp, hr⟩ | ⟨hp, hr⟩ | ⟨hp, hr⟩
  · unfold Spec.LoginServer.check
    simp only [hp]
    refine continueAuth_verdict hc _ n c hn _ ?_ (fun x => absurd x.1 (by simp))
    intro x
    rw [← x]
    simpa using hr
  · unfold Spec.LoginServer.check
    simp only [hp]
    by_cases h0 : utf8 c.options.password = []
    · have : resp = [] := by rw [hr, h0]; simp [scrambleNative]
      rw [if_pos (.inr this)]
      refine continueAuth_verdict hc _ n c hn _ ?_ (fun x => absurd x.1 (by simp))
      intro x
      rw [← x, h0, this]; simp
    · obtain ⟨y, hy1, hy2⟩ := C31_native h hc.size1 c.data.nonce _ h0
      rw [hy1, Option.getD_some] at hr
      subst hr
      split
      · rename_i hx
        refine continueAuth_verdict hc _ n c hn _ ?_ (fun x => absurd x.1 (by simp))
        intro x
        rcases hx with hx | hx
        · exact absurd (x.trans hx) h0
        · have := hy2.1
          rw [hx] at this
          simp at this
      · refine continueAuth_verdict hc _ n c hn _ ?_ (fun x => absurd x.1 (by simp))
        intro x
        rw [← x, hc.sha1]
        exact decide_eq_true hy2
  · unfold Spec.LoginServer.check
    simp only [hp]
    by_cases h0 : utf8 c.options.password = []
    · have : resp = [] := by rw [hr, h0]; simp [scrambleSha256]
      rw [if_pos (.inr this)]
      refine continueAuth_verdict hc _ n c hn _ ?_ ?_
      · intro x
        rw [← x, h0, this]; simp
      · rintro _ x
        rw [h0]
        exact (of_decide_eq_true x).1.symm
    · obtain ⟨y, hy1, hy2⟩ := C31_sha2 h hc.size2 c.data.nonce _ h0
      rw [hy1, Option.getD_some] at hr
      subst hr
      split
      · rename_i hx
        refine continueAuth_verdict hc _ n c hn _ ?_ ?_
        · intro x
          rcases hx with hx | hx
          · exact absurd (x.trans hx) h0
          · have := hy2.1
            rw [hx] at this
            simp at this
        · rintro _ x
          have := (of_decide_eq_true x).2
          have h3 := hy2.1
          rw [this] at h3
          simp at h3
      · split
        · -- the cache knows the password
          rename_i hcache
          refine ⟨[], [], [], true, talk_over true _, fun _ => rfl, fun x => ?_, fun r => ?_⟩
          · have := hcache.1
            rw [x.2] at this
            cases this
          · have e1 := readPacket_feed c c.seqId [1, 3] [S.accept] r
            have e2 := readPacket_feed c (c.seqId + UInt8.ofNat (Spec.frameCount [1, 3])) S.accept [] r
            have e0 : ({ c with rx := rxOf (Spec.framesAll c.seqId [[1, 3], S.accept] ++ []) ++ r } : Conn)
                = c.feed c.seqId [[1, 3], S.accept] r := by
              simp [Conn.feed]
            rw [e0]
            unfold continueAuth
            rw [SM.get_bind_apply]
            dsimp only
            rw [SM.bind_of_ok e1, SM.get_bind_apply]
            dsimp only
            have hpl' : (c.feed c.seqId [[1, 3], S.accept] r).options.authPlugin.getD
                (c.feed c.seqId [[1, 3], S.accept] r).data.authPlugin = .sha2 := by
              rw [← hp]; exact hpl
            rw [if_neg (by decide), if_pos ⟨rfl, hpl'⟩, if_pos rfl, SM.bind_of_ok e2]
            exact ⟨_, rfl, by simp, rfl, rfl, rfl, rfl, rfl, rfl⟩
        · -- full authentication
          refine Ends.read (k := fullAuth (Crypto.real h seed))
            { c with seqId := c.seqId + UInt8.ofNat (Spec.frameCount [1, 4]) } ?_ rfl rfl
            ⟨rfl, rfl, rfl, rfl, rfl⟩ ?_
          · intro rx
            have e1 := readPacket_feed c c.seqId [1, 4] [] rx
            have e0 : ({ c with rx := rxOf (Spec.framesAll c.seqId [[1, 4]]) ++ rx } : Conn)
                = c.feed c.seqId [[1, 4]] rx := rfl
            rw [e0]
            conv_lhs => unfold continueAuth
            rw [SM.get_bind_apply]
            dsimp only
            rw [SM.bind_of_ok e1, SM.get_bind_apply]
            dsimp only
            have hpl' : (c.feed c.seqId [[1, 4]] rx).options.authPlugin.getD
                (c.feed c.seqId [[1, 4]] rx).data.authPlugin = .sha2 := by
              rw [← hp]; exact hpl
            rw [if_neg (by decide), if_pos ⟨rfl, hpl'⟩, if_neg (by decide), if_pos rfl]
            rfl
          · exact fullAuth_ends { c with seqId := c.seqId + UInt8.ofNat (Spec.frameCount [1, 4]) }
              hc hp seed hseed hn hw hnonce hkey Iff.rfl

/-- the answer of a plugin. -/
def answerData (h : Hashes) (pass nonce : Bytes) : AuthPlugin → Option AuthData
  | .clear => some (.clear pass)
  | .native => (scrambleNative h nonce pass).map .native
  | .sha2 => (scrambleSha256 h nonce pass).map .sha2

theorem genData_answer (cr : Crypto) (p : AuthPlugin) (pass nonce : Bytes) (o : Options)
    (hf : o.authPlugin = none ∨ o.authPlugin = some p) (ha : p = .clear → o.allowCleartext = true) :
    p.genData cr pass nonce o = .ok (answerData cr.toHashes pass nonce p) := by
  unfold AuthPlugin.genData answerData
  rcases hf with hf | hf <;> rw [hf] <;> cases p <;> simp_all

/-- the response in the login request. -/
def firstResponse (h : Hashes) (p : AuthPlugin) (pass nonce : Bytes) : Bytes :=
  match p with
  | .clear => pass
  | .native => (scrambleNative h nonce pass).getD []
  | .sha2 => (scrambleSha256 h nonce pass).getD []

theorem length_firstResponse (h1 : ∀ x, (h.sha1 x).length = 20) (h2 : ∀ x, (h.sha256 x).length = 32)
    (p : AuthPlugin) (pass nonce : Bytes) (hp : p = .clear → pass.length ≤ 255) :
    (firstResponse h p pass nonce).length ≤ 255 := by
  unfold firstResponse
  cases p with
  | clear => exact hp rfl
  | native =>
    by_cases h0 : pass = []
    · simp [scrambleNative, h0]
    · obtain ⟨r, hr, hr2⟩ := C31_native h h1 nonce pass h0
      simp only [hr, Option.getD_some, hr2.1]
      omega
  | sha2 =>
    by_cases h0 : pass = []
    · simp [scrambleSha256, h0]
    · obtain ⟨r, hr, hr2⟩ := C31_sha2 h h2 nonce pass h0
      simp only [hr, Option.getD_some, hr2.1]
      omega

theorem isResponse_first (pass nonce : Bytes) :
    IsResponse S h pass nonce (firstResponse h S.plugin pass nonce) := by
  unfold IsResponse firstResponse
  cases S.plugin <;> simp

/-- a request to switch to the account's plugin. -/
theorem continueAuth_switch (c : Conn) (hc : Compatible S c.options h code state msg e)
    (seed : Bytes) (hseed : seed.length = 20) (n : Nat) (hn : Negotiated c) (hw : c.wfaults = [])
    (hkey : c.data.serverKey = c.options.serverKey) (hsw : c.data.authSwitched = false) :
    Ends S code state msg (continueAuth (Crypto.real h seed) (n + 2)) c [S.switchRequest] .response
      (utf8 c.options.password = S.password) (S.plugin = .sha2 ∧ S.cached = false) := by
  have hreq : S.switchRequest = Spec.switchRequest S.plugin (S.challenge2 ++ [0]) := by
    unfold Spec.LoginServer.switchRequest Spec.switchRequest Spec.pluginName
    cases S.plugin <;> simp [ascii]
  have hstrip : stripNul (S.challenge2 ++ [0]) = S.challenge2 := by simp [stripNul]
  have hdes := switchRequest_deserialize S.plugin (S.challenge2 ++ [0])
  rw [hstrip] at hdes
  let cr := Crypto.real h seed
  let c1 : Conn := { c with seqId := c.seqId + UInt8.ofNat (Spec.frameCount S.switchRequest) }
  let c2 : Conn := { c1 with
    data := { c.data with authSwitched := true, authPlugin := S.plugin, nonce := S.challenge2 } }
  refine Ends.read (k := do
      switchAuth cr { plugin := S.plugin, data := S.challenge2 }
      continueAuth cr (n + 1)) c1 ?_ rfl rfl ⟨rfl, rfl, rfl, rfl, rfl⟩ ?_
  · intro rx
    have e1 := readPacket_feed c c.seqId S.switchRequest [] rx
    have e0 : ({ c with rx := rxOf (Spec.framesAll c.seqId [S.switchRequest]) ++ rx } : Conn)
        = c.feed c.seqId [S.switchRequest] rx := rfl
    rw [e0]
    conv_lhs => unfold continueAuth
    rw [SM.get_bind_apply]
    dsimp only
    rw [SM.bind_of_ok e1, SM.get_bind_apply]
    have hcons : S.switchRequest = 0xFE :: S.switchRequest.tail := rfl
    rw [← hreq] at hdes
    rw [hcons] at hdes ⊢
    dsimp only
    rw [if_neg (by decide), if_neg (by simp), if_pos ⟨rfl, hsw⟩, hdes]
    rfl
  · have hgen := genData_answer cr S.plugin (utf8 c.options.password) S.challenge2 c.options hc.forced hc.clear
    obtain ⟨resp, hresp, hwrite⟩ : ∃ resp, IsResponse S h (utf8 c.options.password) S.challenge2 resp ∧
        ∀ rx, switchAuth cr { plugin := S.plugin, data := S.challenge2 } { c1 with rx := rx } =
          (.ok (), { c2.sent resp with rx := rx }) := by
      have hall : ∀ d, S.plugin.genData cr (utf8 c.options.password) S.challenge2 c.options = .ok d →
          ∀ rx, switchAuth cr { plugin := S.plugin, data := S.challenge2 } { c1 with rx := rx } =
            (.ok (), { c2.sent ((d.map AuthData.serialize).getD []) with rx := rx }) := by
        intro d hd rx
        unfold switchAuth
        rw [SM.get_bind_apply]
        dsimp only
        rw [if_neg (by rw [show c1.data.authSwitched = c.data.authSwitched from rfl, hsw]; simp),
          SM.modify_bind_apply, SM.get_bind_apply]
        dsimp only
        rw [show c1.options = c.options from rfl, hd, SM.ofOut_ok_bind_apply]
        cases d with
        | none => exact writePacket_sent c2 _ hw rx
        | some d => exact writePacket_sent c2 _ hw rx
      refine ⟨_, ?_, hall _ hgen⟩
      unfold IsResponse answerData
      cases hp : S.plugin
      · simp [AuthData.serialize]
      · right; left
        refine ⟨rfl, ?_⟩
        show ((Option.map _ (scrambleNative h _ _)).map _).getD [] = _
        cases scrambleNative h S.challenge2 (utf8 c.options.password) <;> rfl
      · right; right
        refine ⟨rfl, ?_⟩
        show ((Option.map _ (scrambleSha256 h _ _)).map _).getD [] = _
        cases scrambleSha256 h S.challenge2 (utf8 c.options.password) <;> rfl
    refine Ends.message (k := continueAuth cr (n + 1)) resp (c2.sent resp) (by simp) ?_ rfl rfl
      ⟨rfl, rfl, rfl, rfl, rfl⟩ ?_
    · intro rx
      rw [SM.bind_of_ok (hwrite rx)]
    · refine continueAuth_check (c2.sent resp) hc seed hseed n hn hw hc.challenge2 hkey ?_ resp hresp
      show c.options.authPlugin.getD S.plugin = S.plugin
      rcases hc.forced with hf | hf <;> rw [hf] <;> rfl

end

/-- the greeting of the server: well-formed, of protocol 4.1, with a version of three numbers
(C36, where the exceptions are shown to matter). -/
structure Spec.Greeting.Usual (g : Spec.Greeting) (alnum : Char → Bool) : Prop where
  formed : g.WellFormed
  status : g.status.toNat.testBit 2 = false
  short : g.dataLen.toNat < 128
  protocol41 : g.caps.toNat.testBit Spec.bitProtocol41 = true
  secure : g.caps.toNat.testBit Spec.bitSecure = true
  version : ∃ (a b c : UInt16) (suffix : Str), g.version = Spec.decText a.toNat ++ '.' ::
      (Spec.decText b.toNat ++ '.' :: (Spec.decText c.toNat ++ suffix)) ∧
    ∀ x r, suffix = x :: r → alnum x = false ∧ x.toNat < 128

/-- **C63**: whatever the account, its plugin, the plugin of the greeting, the state of the cache, the
password on either side and what the caller configured within `Compatible`: there is a conversation in
which every message of the client is answered by the server as its protocol says, of which `login`
sends exactly the client's side and consumes exactly the server's, and `login` ends exactly as the
server decided: success if it accepted, its error if it refused.  With the right user and password the
server accepts; with `caching_sha2_password` and an empty cache it accepts nothing else. -/
theorem C63_login (S : Spec.LoginServer) (o : Options) (h : Hashes) (code : UInt16) (state msg : Str)
    (e : Nat) (seed : Bytes) (alnum : Char → Bool) (hseed : seed.length = 20)
    (hc : Compatible S o h code state msg e) (hg : S.greeting.Usual alnum)
    (hd : ∀ c, 48 ≤ c.toNat → c.toNat ≤ 57 → alnum c = true) (hdot : alnum '.' = false)
    (hu : ∀ b ∈ utf8 o.user, b ≠ 0) (hdb : ∀ d, o.dbName = some d → ∀ b ∈ utf8 d, b ≠ 0)
    (hclear : S.greeting.plugin = .clear → o.allowCleartext = true) :
    ∃ messages sent received accepted,
      S.talk .login (UInt8.ofNat (Spec.frameCount S.greeting.encode)) messages =
        some (sent, received, accepted) ∧
      (utf8 o.user = S.user ∧ utf8 o.password = S.password → accepted = true) ∧
      (S.plugin = .sha2 ∧ S.cached = false → accepted = true →
        utf8 o.user = S.user ∧ utf8 o.password = S.password) ∧
      ∀ rest, ∃ c', login (Crypto.real h seed) alnum
          (Conn.initial o (rxOf (Spec.frames 0 S.greeting.encode ++ sent) ++ rest) []) =
        (verdictResult code state msg accepted, c') ∧
        c'.tx = received ∧ c'.rx = rest ∧ c'.wfaults = [] ∧ c'.options = o ∧
        c'.pendingResult = false ∧
        (∀ i, c'.data.capabilities.toNat.testBit i =
          (S.greeting.caps.toNat.testBit i && Spec.implemented o.dbName.isSome i)) ∧
        c'.data.maxAllowedPacket = o.maxAllowedPacket.getD DEFAULT_MAX_ALLOWED_PACKET := by
  obtain ⟨va, vb, vc, suffix, hv, hs⟩ := hg.version
  let hs' := connDataOf o S.greeting.decoded (some ((va, vb, vc), "MariaDB".toList.isPrefixOf suffix.tail))
  let c0 : Conn := { Conn.initial o [] [] with
    seqId := UInt8.ofNat (Spec.frameCount S.greeting.encode), data := hs' }
  have hrun : ∀ rx, handleHandshake alnum
      (Conn.initial o (rxOf (Spec.frames 0 S.greeting.encode) ++ rx) []) = (.ok (), { c0 with rx := rx }) := by
    intro rx
    unfold handleHandshake
    rw [SM.bind_of_ok (readPacket_frames S.greeting.encode rx _ rfl),
      deserialize_greeting _ hg.formed hg.status hg.short]
    dsimp only
    rw [show S.greeting.decoded.serverVersion = S.greeting.version from rfl, hv,
      parseServerVersion_spec alnum va vb vc suffix hd hdot hs]
    dsimp only
    simp [SM.modify, Conn.initial, c0, hs']
  have hcaps : ∀ i, c0.data.capabilities.toNat.testBit i =
      (S.greeting.caps.toNat.testBit i && Spec.implemented o.dbName.isSome i) := by
    intro i
    rw [← options_caps]
    simp only [c0, hs', connDataOf, UInt32.toNat_and, Nat.testBit_and, Spec.Greeting.decoded]
  have hneg : Negotiated c0 := by
    constructor
    · rw [hasFlag32_eq _ _ 9 rfl, hcaps, show S.greeting.caps.toNat.testBit 9 = true from hg.protocol41]
      cases o.dbName.isSome <;> rfl
    · rw [hasFlag32_eq _ _ 29 rfl, hcaps]
      cases o.dbName.isSome <;> simp [Spec.implemented, Spec.bitProtocol41, Spec.bitSecure,
        Spec.bitTransactions, Spec.bitPsMultiResults, Spec.bitDeprecateEof, Spec.bitPluginAuth,
        Spec.bitConnectWithDb]
  have hnonce : c0.data.nonce = S.greeting.challenge := rfl
  have hchal : S.greeting.challenge ≠ [] := by
    intro h0
    have : S.greeting.challenge.length = 20 := by
      unfold Spec.Greeting.challenge
      rw [if_pos hg.secure, List.length_take, List.length_append, hg.formed.part1,
        hg.formed.part2 hg.secure]
      omega
    rw [h0] at this
    simp at this
  generalize hp0 : o.authPlugin.getD c0.data.authPlugin = p0
  have hforced : o.authPlugin = none ∨ o.authPlugin = some p0 := by
    cases hx : o.authPlugin with
    | none => exact .inl rfl
    | some f => rw [hx] at hp0; exact .inr (by rw [← hp0]; rfl)
  have hallow : p0 = .clear → o.allowCleartext = true := by
    intro h0
    rcases hc.forced with hf | hf
    · rw [hf, h0] at hp0
      have hp1 : (if S.greeting.caps.toNat.testBit Spec.bitPluginAuth then some S.greeting.plugin
        else none).getD .native = AuthPlugin.clear := hp0
      split at hp1
      · exact hclear hp1
      · cases hp1
    · rw [hf, h0] at hp0
      exact hc.clear hp0
  have hgen := genData_answer (Crypto.real h seed) p0 (utf8 o.password) c0.data.nonce o hforced hallow
  -- the login request
  generalize hresp : firstResponse h p0 (utf8 o.password) c0.data.nonce = resp
  have hcarry : Spec.Carriable c0.data.capabilities resp := by
    unfold Spec.Carriable
    rw [hcaps, hcaps]
    rw [show Spec.implemented o.dbName.isSome Spec.bitLenencAuth = false by
        cases o.dbName.isSome <;> rfl,
      show Spec.implemented o.dbName.isSome Spec.bitSecure = true by
        cases o.dbName.isSome <;> rfl, hg.secure]
    simp only [Bool.and_false, Bool.false_eq_true, if_false, Bool.and_true, if_true]
    rw [← hresp]
    exact length_firstResponse hc.size1 hc.size2 _ _ _ fun h0 => hc.short (hallow h0)
  obtain ⟨w, coll, hread, _, _⟩ := readLogin_response resp (utf8 o.user) c0.data.version
    (o.dbName.map utf8) p0 c0.data.capabilities (UInt32.ofNat c0.data.maxAllowedPacket) hu
    (by
      intro d hd
      cases hn : o.dbName with
      | none => rw [hn] at hd; simp at hd
      | some x =>
        rw [hn] at hd
        simp only [Option.map_some, Option.some.injEq] at hd
        subst hd
        exact hdb x hn) hcarry
  generalize hreq : handshakeResponse resp c0.data.version (utf8 o.user) (o.dbName.map utf8) (some p0)
    c0.data.capabilities (UInt32.ofNat c0.data.maxAllowedPacket) = req at hread
  have hdo : ∀ rx, doHandshakeResponse (Crypto.real h seed) { c0 with rx := rx } =
      (.ok (), { c0.sent req with rx := rx }) := by
    intro rx
    unfold doHandshakeResponse
    rw [SM.get_bind_apply]
    dsimp only
    rw [show c0.options = o from rfl, hp0, hgen, SM.ofOut_ok_bind_apply]
    have : ((answerData h (utf8 o.password) c0.data.nonce p0).map AuthData.bytes).getD []
        = resp := by
      rw [← hresp]
      unfold firstResponse answerData
      cases p0 with
      | clear => rfl
      | native => cases scrambleNative h c0.data.nonce (utf8 o.password) <;> rfl
      | sha2 => cases scrambleSha256 h c0.data.nonce (utf8 o.password) <;> rfl
    show writePacket (handshakeResponse
      (((answerData h (utf8 o.password) c0.data.nonce p0).map AuthData.bytes).getD []) _ _ _ _ _ _) _ = _
    rw [this, hreq]
    exact writePacket_sent c0 req rfl rx
  have hends : Ends S code state msg (do
      doHandshakeResponse (Crypto.real h seed)
      continueAuth (Crypto.real h seed) 2) c0 [] .login
      (utf8 o.user = S.user ∧ utf8 o.password = S.password) (S.plugin = .sha2 ∧ S.cached = false) := by
    refine Ends.message (k := continueAuth (Crypto.real h seed) 2) req (c0.sent req) (by simp) ?_ rfl rfl
      (sameSide_sent _ _) ?_
    · intro rx
      rw [SM.bind_of_ok (hdo rx)]
    · simp only [Spec.LoginServer.react, hread]
      by_cases huser : utf8 o.user = S.user
      · rw [if_neg (by simpa using huser)]
        have hright : (utf8 o.user = S.user ∧ utf8 o.password = S.password) =
            (utf8 o.password = S.password) := by simp [huser]
        rw [hright]
        by_cases hp : p0 = S.plugin
        · rw [if_pos (by rw [hp]), ← hnonce]
          refine continueAuth_check (c0.sent req) hc seed hseed 1 hneg rfl (by rw [← hnonce] at hchal; exact hchal)
            rfl (by rw [← hp]; exact hp0) resp ?_
          rw [← hresp, hp]
          exact isResponse_first _ _
        · have hname : Spec.pluginName p0 ≠ Spec.pluginName S.plugin := by
            revert hp
            cases p0 <;> cases S.plugin <;> decide +kernel
          rw [if_neg (by simpa using hname)]
          exact continueAuth_switch (c0.sent req) hc seed hseed 0 hneg rfl rfl rfl
      · rw [if_pos (by simpa using huser)]
        exact continueAuth_verdict hc _ 1 (c0.sent req) hneg false (fun x => absurd x.1 huser)
          (fun _ x => by cases x)
  obtain ⟨ms, sb, cb, b, g1, g2, g3, g4⟩ := hends
  refine ⟨ms, sb, cb, b, g1, g2, g3, fun rest => ?_⟩
  obtain ⟨c', k1, k2, k3, k4, k5, k6, k7, k8⟩ := g4 rest
  refine ⟨c', ?_, k2, k3, k4, k5, k6, ?_, k8⟩
  · rw [← k1]
    unfold login
    rw [rxOf_append, List.append_assoc, SM.bind_of_ok (hrun _)]
    rfl
  · intro i
    rw [k7, hcaps]

namespace C63

/-- toy hash functions with the right digest sizes that see their whole input. -/
def hashes : Hashes := { sha1 := C33.toy, sha256 := fun x => C33.toy x ++ (C33.toy (0 :: x)).take 12 }

/-- an account on a server whose default plugin is `caching_sha2_password`. -/
def server (plugin : AuthPlugin) (secure cached : Bool) : Spec.LoginServer :=
  { greeting := C36.greeting "8.0.34-0ubuntu0.22.04.1" 21 ((List.range 12).map UInt8.ofNat ++ [0])
    user := ascii "u"
    plugin := plugin
    password := ascii "hunter2"
    challenge2 := (List.range 20).map fun i => UInt8.ofNat (60 + i)
    cached := cached
    secure := secure
    sha1 := hashes.sha1
    sha256 := hashes.sha256
    modulus := mersenne 521 * mersenne 607
    private_ := C34.d
    keyText := Spec.pemSpki (mersenne 521 * mersenne 607) 65537
    accept := Spec.okPacket 0 0 2 0 []
    refuse := Spec.errPacket 1045 (some (utf8 "28000".toList)) "Access denied".toList }

/-- play the server against the connector's messages and run the connector against the server. -/
def agrees (S : Spec.LoginServer) (o : Options) (messages : List Bytes) (accepted : Bool) : Bool :=
  match S.talk .login 1 messages with
  | some (sent, received, b) =>
    let r := login (Crypto.real hashes C33.seed) C28.asciiAlnum
      (Conn.initial o (rxOf (Spec.frames 0 S.greeting.encode ++ sent)) [])
    b == accepted && decide (r.1 = verdictResult 1045 "28000".toList "Access denied".toList b) &&
      r.2.tx == received && decide (r.2.rx = [])
  | none => false

def request (o : Options) : Bytes :=
  handshakeResponse (firstResponse hashes .sha2 (utf8 o.password) (server .native false false).greeting.challenge)
    (8, 0, 34) (utf8 o.user) none (some .sha2) (0xDFFFFFFF &&& o.capabilities) 1000

end C63

/-- a switch to `mysql_native_password`, answered right and answered wrong. -/
example :
    C63.agrees (C63.server .native false false) C28.opts
      [C63.request C28.opts, firstResponse C63.hashes .native (ascii "hunter2")
        (C63.server .native false false).challenge2] true = true ∧
    C63.agrees (C63.server .native false false) { C28.opts with password := "hunter3".toList }
      [C63.request { C28.opts with password := "hunter3".toList },
        firstResponse C63.hashes .native (ascii "hunter3") (C63.server .native false false).challenge2]
      false = true := by
  decide +kernel

/-- `caching_sha2_password` on a secure transport: with a full cache the request suffices, with an
empty one the password follows. -/
example :
    C63.agrees (C63.server .sha2 true true) { C28.opts with secure := true }
      [C63.request C28.opts] true = true ∧
    C63.agrees (C63.server .sha2 true false) { C28.opts with secure := true }
      [C63.request C28.opts, ascii "hunter2" ++ [0]] true = true := by
  decide +kernel

/-- the hypotheses hold for this server with an empty cache and an 1128-bit key the client does not
know, on an open transport. -/
example : Compatible (C63.server .sha2 false false) C28.opts C63.hashes 1045 "28000".toList
    "Access denied".toList 65537 ∧ (C63.server .sha2 false false).greeting.Usual C28.asciiAlnum := by
  refine ⟨⟨rfl, rfl, toy_length, fun x => ?_, ⟨_, rfl⟩, rfl, by decide, rfl, by decide, .inl rfl,
    by simp [C63.server], by simp [C28.opts], .inl rfl, fun _ _ => ?_⟩, ?_⟩
  · simp [C63.hashes, toy_length]
  · exact ⟨⟨_, _, lucas_lehmer_sufficiency 521 (by simp) (by norm_num),
      lucas_lehmer_sufficiency 607 (by simp) (by norm_num), by decide +kernel, rfl, 65280, by decide +kernel⟩,
      by decide +kernel, by decide +kernel, by decide +kernel, .inr ⟨by decide +kernel, rfl⟩⟩
  · refine ⟨⟨by decide +kernel, by decide +kernel, by decide +kernel⟩, by decide +kernel,
      by decide +kernel, by decide +kernel, by decide +kernel,
      8, 0, 34, "-0ubuntu0.22.04.1".toList, by decide +kernel, fun x r hx => ?_⟩
    injection hx with h1 _
    subst h1
    decide +kernel

end Verif

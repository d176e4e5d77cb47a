import Verif.Proofs.Auth

/-!
# What logging in leaves alone

Options, connection id, version, capabilities, packet limit and the pending-result flag are not
touched by the packet layer or by authentication.
-/

namespace Verif

/-- the part of a connection that is fixed by the handshake. -/
def Conn.fixed (c : Conn) :
    Options × UInt32 × Bool × (UInt16 × UInt16 × UInt16) × UInt32 × Nat × Bool :=
  (c.options, c.data.id, c.data.isMariadb, c.data.version, c.data.capabilities,
    c.data.maxAllowedPacket, c.pendingResult)

/-- the action does not change the fixed part, however it ends. -/
def Fixes {α : Type} (m : M α) : Prop := ∀ c, (m c).2.fixed = c.fixed

namespace Fixes

variable {α β : Type}

theorem pure (a : α) : Fixes (Pure.pure a : M α) := fun _ => rfl
theorem fail (e : Error) : Fixes (SM.fail e : M α) := fun _ => rfl
theorem crash : Fixes (SM.crash : M α) := fun _ => rfl
theorem get : Fixes (SM.get : M Conn) := fun _ => rfl
theorem ofOut (o : Out Error α) : Fixes (SM.ofOut o : M α) := by
  intro c; cases o <;> rfl

theorem bind {m : M α} {f : α → M β} (hm : Fixes m) (hf : ∀ a, Fixes (f a)) : Fixes (m >>= f) := by
  intro c
  have h := hm c
  rw [SM.bind_apply]
  match e : m c with
  | (.ok a, s) => rw [e] at h; exact (hf a s).trans h
  | (.err _, s) => rw [e] at h; exact h
  | (.panic, s) => rw [e] at h; exact h

theorem ite {p : Prop} [Decidable p] {a b : M α} (ha : Fixes a) (hb : Fixes b) :
    Fixes (if p then a else b) := by
  split <;> assumption

theorem readPacket : Fixes Verif.readPacket := by
  intro c
  obtain ⟨h1, h2, h3⟩ := Keeps.readPacket c
  unfold Conn.fixed
  rw [h1, h2, h3]

theorem writePacket (bs : Bytes) : Fixes (Verif.writePacket bs) := by
  intro c
  obtain ⟨t, f, s, x, h1, _, _⟩ := writePacket_gen bs c
  rw [h1]; rfl

theorem liftP (o : Out ProtocolError α) : Fixes (Verif.liftP o) := by
  unfold Verif.liftP; exact ofOut _

theorem authFailure (packet : Bytes) : Fixes (Verif.authFailure (α := α) packet) := by
  unfold Verif.authFailure
  refine bind get fun c => ?_
  split
  · exact fail _
  · exact fail _
  · exact crash

theorem fetchKey : Fixes Verif.fetchKey := by
  unfold Verif.fetchKey
  refine bind get fun c => ?_
  split
  · exact pure _
  · refine bind (writePacket _) fun _ => bind readPacket fun packet => bind get fun c => ?_
    split
    · exact fail _
    · exact ite (bind (ofOut _) fun k => bind (fun _ => rfl) fun _ => pure _)
        (ite (bind (liftP _) fun e => fail _) (fail _))

theorem sendPassword (cr : Crypto) : Fixes (Verif.sendPassword cr) := by
  unfold Verif.sendPassword
  refine bind get fun c => ?_
  exact ite (writePacket _) (bind fetchKey fun k => bind get fun c => bind (ofOut _) fun x =>
    bind (ofOut _) fun e => writePacket _)

theorem readVerdict : Fixes Verif.readVerdict := by
  unfold Verif.readVerdict
  refine bind readPacket fun p => bind get fun c => ?_
  split
  · exact fail _
  · exact ite (pure _) (ite (bind (liftP _) fun e => fail _) (fail _))

theorem fullAuth (cr : Crypto) : Fixes (Verif.fullAuth cr) := by
  unfold Verif.fullAuth
  exact bind (sendPassword cr) fun _ => readVerdict

theorem switchAuth (cr : Crypto) (sw : AuthSwitch) : Fixes (Verif.switchAuth cr sw) := by
  unfold Verif.switchAuth
  refine bind get fun c => ite crash (bind (fun _ => rfl) fun _ => bind get fun c =>
    bind (ofOut _) fun d => ?_)
  split <;> exact writePacket _

theorem continueAuth (cr : Crypto) (n : Nat) : Fixes (Verif.continueAuth cr n) := by
  induction n with
  | zero => exact crash
  | succ n ih =>
    unfold Verif.continueAuth
    refine bind get fun c => bind readPacket fun p => bind get fun c => ?_
    split
    · exact authFailure _
    · refine ite (pure _) (ite ?_ (ite ?_ (authFailure _)))
      · split
        · exact fail _
        · exact ite (bind readPacket fun _ => pure _) (ite (fullAuth cr) (fail _))
      · exact bind (liftP _) fun sw => bind (switchAuth cr sw) fun _ => ih

theorem doHandshakeResponse (cr : Crypto) : Fixes (Verif.doHandshakeResponse cr) := by
  unfold Verif.doHandshakeResponse
  exact bind get fun c => bind (ofOut _) fun d => writePacket _

end Fixes

/-- a successful handshake: some packet was read and decoded, and the data comes from it. -/
theorem handleHandshake_ok {alnum : Char → Bool} {c c' : Conn}
    (h : handleHandshake alnum c = (.ok (), c')) :
    ∃ packet hs v c1, readPacket c = (.ok packet, c1) ∧ runP Handshake.deserialize packet = .ok hs ∧
      parseServerVersion alnum hs.serverVersion = .ok v ∧
      c' = { c1 with data := connDataOf c.options hs v } := by
  unfold handleHandshake at h
  obtain ⟨packet, c1, h1, h2⟩ := SM.bind_eq_ok.1 h
  have ho : c1.options = c.options := by
    have := readPacket_options c; rw [h1] at this; exact this
  match he : runP Handshake.deserialize packet with
  | .ok hs =>
    rw [he] at h2
    dsimp only at h2
    match hv : parseServerVersion alnum hs.serverVersion with
    | .ok v =>
      rw [hv] at h2
      refine ⟨packet, hs, v, c1, h1, he, hv, ?_⟩
      rw [← ho]
      injection h2 with _ h2
      exact h2.symm
    | .panic => rw [hv] at h2; cases h2
  | .err _ => rw [he] at h2; cases h2
  | .panic => rw [he] at h2; cases h2

/-- a successful login: the handshake, then authentication, which leaves the fixed part alone. -/
theorem login_ok {cr : Crypto} {alnum : Char → Bool} {c c' : Conn}
    (h : login cr alnum c = (.ok (), c')) :
    ∃ c1, handleHandshake alnum c = (.ok (), c1) ∧ c'.fixed = c1.fixed := by
  unfold login at h
  obtain ⟨_, c1, h1, h2⟩ := SM.bind_eq_ok.1 h
  refine ⟨c1, h1, ?_⟩
  have := Fixes.bind (Fixes.doHandshakeResponse cr) (fun _ => Fixes.continueAuth cr 2) c1
  rw [h2] at this
  exact this

end Verif

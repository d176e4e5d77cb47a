import Verif.Spec.Auth
import Verif.Proofs.Io
import Verif.Proofs.ResultSet

/-!
# What is read and written while authenticating
-/

namespace Verif

/-- with options `o`, `m` makes at most `r` attempts to read a packet and writes at most `w`
packets, all of them satisfying `Q` (the last one possibly cut off by a write failure). -/
def Talks {α : Type} (o : Options) (Q : Bytes → Prop) (r w : Nat) (m : M α) : Prop :=
  ∀ c, c.options = o → (m c).2.options = o ∧ Spec.ReadSteps r c.rx (m c).2.rx ∧
    ∃ (ps : List (UInt8 × Bytes)) (t : Bytes), ps.length ≤ w ∧ (∀ p ∈ ps, Q p.2) ∧
      (m c).2.tx = c.tx ++ t ∧ t <+: Spec.wire ps ∧ (∀ a, (m c).1 = .ok a → t = Spec.wire ps)

theorem Spec.ReadSteps.mono {n m : Nat} {r r' : List Rx} (h : Spec.ReadSteps n r r') (hm : n ≤ m) :
    Spec.ReadSteps m r r' := by
  induction h generalizing m with
  | none => exact .none
  | step h ih =>
    obtain ⟨k, rfl⟩ : ∃ k, m = k + 1 := ⟨m - 1, by omega⟩
    exact .step (ih (by omega))

theorem Spec.ReadSteps.trans {n m : Nat} {r r' r'' : List Rx} (h : Spec.ReadSteps n r r')
    (h' : Spec.ReadSteps m r' r'') : Spec.ReadSteps (n + m) r r'' := by
  induction h with
  | none => exact h'.mono (by omega)
  | step h ih =>
    rename_i n c r'
    have : n + 1 + m = (n + m) + 1 := by omega
    rw [this]
    exact .step (ih h')

namespace Talks

variable {α β : Type} {o : Options} {Q : Bytes → Prop}

theorem quiet {m : M α} (h : ∀ c, (m c).2.options = c.options ∧ (m c).2.rx = c.rx ∧
    (m c).2.tx = c.tx) : Talks o Q 0 0 m := by
  intro c hc
  obtain ⟨h1, h2, h3⟩ := h c
  refine ⟨by rw [h1, hc], by rw [h2]; exact .none, [], [], Nat.le_refl _, by simp, by simp [h3],
    List.nil_prefix, fun _ _ => rfl⟩

theorem mono {m : M α} {r w r' w' : Nat} (h : Talks o Q r w m) (hr : r ≤ r') (hw : w ≤ w') :
    Talks o Q r' w' m := by
  intro c hc
  obtain ⟨h1, h2, ps, t, h3, h4⟩ := h c hc
  exact ⟨h1, h2.mono hr, ps, t, by omega, h4⟩

theorem weaken {Q' : Bytes → Prop} {m : M α} {r w : Nat} (h : Talks o Q r w m)
    (hq : ∀ b, Q b → Q' b) : Talks o Q' r w m := by
  intro c hc
  obtain ⟨h1, h2, ps, t, h3, h4, h5⟩ := h c hc
  exact ⟨h1, h2, ps, t, h3, fun p hp => hq _ (h4 p hp), h5⟩

theorem pure (a : α) : Talks o Q 0 0 (Pure.pure a : M α) := quiet fun _ => ⟨rfl, rfl, rfl⟩
theorem fail (e : Error) : Talks o Q 0 0 (SM.fail e : M α) := quiet fun _ => ⟨rfl, rfl, rfl⟩
theorem crash : Talks o Q 0 0 (SM.crash : M α) := quiet fun _ => ⟨rfl, rfl, rfl⟩
theorem ofOut (x : Out Error α) : Talks o Q 0 0 (SM.ofOut x : M α) := quiet fun _ => ⟨rfl, rfl, rfl⟩
theorem liftP (x : Out ProtocolError α) : Talks o Q 0 0 (Verif.liftP x) := ofOut _

theorem bind {m : M α} {f : α → M β} {r w r' w' : Nat} (hm : Talks o Q r w m)
    (hf : ∀ a, Talks o Q r' w' (f a)) : Talks o Q (r + r') (w + w') (m >>= f) := by
  intro c hc
  obtain ⟨h1, h2, ps, t, h3, h4, h5, h6, h7⟩ := hm c hc
  rw [SM.bind_apply]
  match e : m c with
  | (.ok a, s) =>
    rw [e] at h1 h2 h5 h7
    obtain ⟨g1, g2, qs, u, g3, g4, g5, g6, g7⟩ := hf a s h1
    refine ⟨g1, h2.trans g2, ps ++ qs, t ++ u, by simp; omega, ?_, ?_, ?_, ?_⟩
    · intro p hp
      rcases List.mem_append.1 hp with hp | hp
      · exact h4 p hp
      · exact g4 p hp
    · show (f a s).2.tx = _
      rw [g5, h5, List.append_assoc]
    · have : t = Spec.wire ps := h7 a rfl
      rw [this]
      unfold Spec.wire
      rw [List.flatMap_append]
      exact List.prefix_append_right_inj _ |>.2 g6
    · intro b hb
      have : t = Spec.wire ps := h7 a rfl
      rw [this, g7 b hb]
      unfold Spec.wire
      rw [List.flatMap_append]
  | (.err x, s) =>
    rw [e] at h1 h2 h5
    exact ⟨h1, h2.mono (by omega), ps, t, by omega, h4, h5, h6, by simp⟩
  | (.panic, s) =>
    rw [e] at h1 h2 h5
    exact ⟨h1, h2.mono (by omega), ps, t, by omega, h4, h5, h6, by simp⟩

theorem ofOut_bind {x : Out Error α} {f : α → M β} {r w : Nat}
    (hf : ∀ a, x = .ok a → Talks o Q r w (f a)) : Talks o Q r w (SM.ofOut x >>= f) := by
  cases x with
  | ok a => exact hf a rfl
  | err e => exact mono (m := (SM.fail e : M β)) (fail e) (Nat.zero_le _) (Nat.zero_le _)
  | panic => exact mono (m := (SM.crash : M β)) crash (Nat.zero_le _) (Nat.zero_le _)

theorem get_bind {f : Conn → M β} {r w : Nat} (hf : ∀ c, c.options = o → Talks o Q r w (f c)) :
    Talks o Q r w (SM.get >>= f) := fun c hc => hf c hc c hc

theorem ite {p : Prop} [Decidable p] {a b : M α} {r w : Nat} (ha : Talks o Q r w a)
    (hb : Talks o Q r w b) : Talks o Q r w (if p then a else b) := by
  split <;> assumption

theorem modify {g : Conn → Conn} (hg : ∀ c, (g c).options = c.options ∧ (g c).rx = c.rx ∧
    (g c).tx = c.tx) : Talks o Q 0 0 (SM.modify g : M Unit) := quiet hg

end Talks

/-! ### Reading a packet keeps everything but the tape and the sequence number -/

/-- options, connection data and the pending flag stay as they are. -/
def Keeps {α : Type} (m : M α) : Prop :=
  ∀ c, (m c).2.options = c.options ∧ (m c).2.data = c.data ∧ (m c).2.pendingResult = c.pendingResult

namespace Keeps

variable {α β : Type}

theorem pure (a : α) : Keeps (Pure.pure a : M α) := fun _ => ⟨rfl, rfl, rfl⟩
theorem fail (e : Error) : Keeps (SM.fail e : M α) := fun _ => ⟨rfl, rfl, rfl⟩
theorem crash : Keeps (SM.crash : M α) := fun _ => ⟨rfl, rfl, rfl⟩
theorem get : Keeps (SM.get : M Conn) := fun _ => ⟨rfl, rfl, rfl⟩

theorem bind {m : M α} {f : α → M β} (hm : Keeps m) (hf : ∀ a, Keeps (f a)) : Keeps (m >>= f) := by
  intro c
  have h := hm c
  rw [SM.bind_apply]
  match e : m c with
  | (.ok a, s) =>
    rw [e] at h
    have g := hf a s
    exact ⟨g.1.trans h.1, g.2.1.trans h.2.1, g.2.2.trans h.2.2⟩
  | (.err _, s) => rw [e] at h; exact h
  | (.panic, s) => rw [e] at h; exact h

theorem ite {p : Prop} [Decidable p] {a b : M α} (ha : Keeps a) (hb : Keeps b) :
    Keeps (if p then a else b) := by
  split <;> assumption

theorem readExact (n : Nat) : Keeps (Verif.readExact n) := fun _ => ⟨rfl, rfl, rfl⟩

theorem readChunk (dst : Bytes) : Keeps (Verif.readChunk dst) := by
  unfold Verif.readChunk
  refine bind (readExact 4) fun a => ?_
  split
  · exact ite (pure _) (bind (readExact _) fun a => ite (pure _) (pure _))
  · exact crash

theorem readPacketLoop (fuel : Nat) (dst : Bytes) : Keeps (Verif.readPacketLoop fuel dst) := by
  induction fuel generalizing dst with
  | zero => exact crash
  | succ n ih =>
    unfold Verif.readPacketLoop
    refine bind (readChunk dst) fun a => bind get fun c => ?_
    exact ite (fail _) (bind (fun _ => ⟨rfl, rfl, rfl⟩) fun _ => ite (pure _) (ih _))

theorem readPacket : Keeps Verif.readPacket := fun c => readPacketLoop _ _ c

end Keeps

theorem readPacket_options (c : Conn) : (readPacket c).2.options = c.options := (Keeps.readPacket c).1
theorem readPacket_data (c : Conn) : (readPacket c).2.data = c.data := (Keeps.readPacket c).2.1
theorem readPacket_pending (c : Conn) : (readPacket c).2.pendingResult = c.pendingResult :=
  (Keeps.readPacket c).2.2

namespace Talks

variable {α β : Type} {o : Options} {Q : Bytes → Prop}

theorem readPacket : Talks o Q 1 0 Verif.readPacket := by
  intro c hc
  refine ⟨by rw [readPacket_options, hc], .step .none, [], [], Nat.le_refl _, by simp, ?_,
    List.nil_prefix, fun _ _ => rfl⟩
  rw [(readOnly_readPacket c).1, List.append_nil]

theorem writePacket {bs : Bytes} (hq : Q bs) : Talks o Q 0 1 (Verif.writePacket bs) := by
  intro c hc
  obtain ⟨t, f, s, x, h1, h2, h3⟩ := writePacket_gen bs c
  rw [h1]
  refine ⟨hc, .none, [(c.seqId, bs)], t, Nat.le_refl _, ?_, rfl, ?_, ?_⟩
  · intro p hp
    simp only [List.mem_singleton] at hp
    subst hp; exact hq
  · simpa [Spec.wire] using h2
  · intro a ha
    rcases h3 with ⟨_, h, _⟩ | ⟨e, h⟩
    · simpa [Spec.wire] using h
    · subst h
      exact absurd ha (by simp)

theorem authFailure (pk : Bytes) : Talks o Q 0 0 (Verif.authFailure (α := α) pk) := by
  unfold Verif.authFailure
  refine get_bind fun c hc => ?_
  split
  · exact fail _
  · exact fail _
  · exact crash

theorem handleHandshake (alnum : Char → Bool) : Talks o Q 1 0 (Verif.handleHandshake alnum) := by
  unfold Verif.handleHandshake
  refine bind (r := 1) (w := 0) (r' := 0) (w' := 0) readPacket fun pk => ?_
  split
  · split
    · exact modify fun c => ⟨rfl, rfl, rfl⟩
    · exact crash
  · exact crash

theorem fetchKey (hk : Q [2]) : Talks o Q 1 1 Verif.fetchKey := by
  unfold Verif.fetchKey
  refine get_bind fun c hc => ?_
  split
  · exact (pure _).mono (by omega) (by omega)
  · refine bind (r := 0) (w := 1) (r' := 1) (w' := 0) (writePacket hk) fun _ => ?_
    refine bind (r := 1) (w := 0) (r' := 0) (w' := 0) readPacket fun pk => get_bind fun c hc => ?_
    split
    · exact fail _
    · refine ite ?_ (ite ?_ (fail _))
      · refine bind (r := 0) (w := 0) (r' := 0) (w' := 0) (ofOut _) fun k => ?_
        refine bind (r := 0) (w := 0) (r' := 0) (w' := 0) (modify fun c => ⟨rfl, rfl, rfl⟩) fun _ => ?_
        exact pure _
      · exact bind (r := 0) (w := 0) (r' := 0) (w' := 0) (liftP _) fun _ => fail _

end Talks

/-! ### The answers -/

section
variable {cr : Crypto} {o : Options}

/-- what `gen_data` yields is a permitted answer for its plugin, and the plugin is the forced one
if there is one. -/
theorem genData_ok {p : AuthPlugin} {nonce : Bytes} {d : Option AuthData}
    (hg : p.genData cr (utf8 o.password) nonce o = .ok d) :
    (∀ f, o.authPlugin = some f → p = f) ∧
    ((p = .clear ∧ o.allowCleartext = true ∧ d = some (.clear (utf8 o.password))) ∨
     (p = .native ∧ d = (scrambleNative cr.toHashes nonce (utf8 o.password)).map .native) ∨
     (p = .sha2 ∧ d = (scrambleSha256 cr.toHashes nonce (utf8 o.password)).map .sha2)) := by
  unfold AuthPlugin.genData at hg
  dsimp only at hg
  constructor
  · intro f hf
    rw [hf] at hg
    refine Decidable.byContradiction fun hc => ?_
    simp [hc] at hg
  · split at hg
    · exact absurd hg (by simp)
    · split at hg
      · split at hg
        · exact absurd hg (by simp)
        · rename_i ha
          injection hg with hg
          exact .inl ⟨rfl, by simpa using ha, hg.symm⟩
      · injection hg with hg
        exact .inr (.inl ⟨rfl, hg.symm⟩)
      · injection hg with hg
        exact .inr (.inr ⟨rfl, hg.symm⟩)

theorem Talks.doHandshakeResponse :
    Talks o (fun b => ∃ p, (∀ f, o.authPlugin = some f → p = f) ∧ Spec.Permitted cr o p b) 0 1
      (Verif.doHandshakeResponse cr) := by
  unfold Verif.doHandshakeResponse
  refine Talks.get_bind fun c hc => ?_
  subst hc
  dsimp only
  refine Talks.ofOut_bind fun d hd => ?_
  · refine Talks.writePacket ?_
    obtain ⟨h1, h2⟩ := genData_ok (o := c.options) hd
    refine ⟨_, h1, ?_⟩
    rcases h2 with ⟨hp, ha, rfl⟩ | ⟨hp, rfl⟩ | ⟨hp, rfl⟩
    · rw [hp]
      exact .inr ⟨.login _ _ _, fun _ => ha, by simp⟩
    · rw [hp]
      refine .inl ?_
      have : (Option.map AuthData.bytes
          (Option.map AuthData.native (scrambleNative cr.toHashes c.data.nonce (utf8 c.options.password)))).getD []
          = (scrambleNative cr.toHashes c.data.nonce (utf8 c.options.password)).getD [] := by
        cases scrambleNative cr.toHashes c.data.nonce (utf8 c.options.password) <;> rfl
      rw [this]
      exact .loginNative _ _ _ _
    · rw [hp]
      refine .inl ?_
      have : (Option.map AuthData.bytes
          (Option.map AuthData.sha2 (scrambleSha256 cr.toHashes c.data.nonce (utf8 c.options.password)))).getD []
          = (scrambleSha256 cr.toHashes c.data.nonce (utf8 c.options.password)).getD [] := by
        cases scrambleSha256 cr.toHashes c.data.nonce (utf8 c.options.password) <;> rfl
      rw [this]
      exact .loginSha2 _ _ _ _

theorem Talks.switchAuth (sw : AuthSwitch) :
    Talks o (fun b => ∃ p, (∀ f, o.authPlugin = some f → p = f) ∧ Spec.Permitted cr o p b) 0 1
      (Verif.switchAuth cr sw) := by
  unfold Verif.switchAuth
  refine Talks.get_bind fun c hc => ?_
  split
  · exact Talks.crash.mono (Nat.le_refl _) (by omega)
  · refine Talks.bind (r := 0) (w := 0) (r' := 0) (w' := 1) (Talks.modify fun c => ⟨rfl, rfl, rfl⟩)
      fun _ => Talks.get_bind fun c hc => ?_
    subst hc
    refine Talks.ofOut_bind fun d hd => ?_
    · obtain ⟨h1, h2⟩ := genData_ok (o := c.options) hd
      split
      · rename_i x
        refine Talks.writePacket ?_
        refine ⟨_, h1, ?_⟩
        rcases h2 with ⟨hp, ha, h2⟩ | ⟨hp, h2⟩ | ⟨hp, h2⟩
        · rw [hp]
          injection h2 with h2
          subst h2
          exact .inr ⟨.switch, fun _ => ha, by simp⟩
        · rw [hp]
          have : x.serialize = (scrambleNative cr.toHashes c.data.nonce (utf8 c.options.password)).getD [] := by
            cases hx : scrambleNative cr.toHashes c.data.nonce (utf8 c.options.password) with
            | none => rw [hx] at h2; exact absurd h2 (by simp)
            | some y => rw [hx] at h2; injection h2 with h2; subst h2; rfl
          rw [this]
          exact .inl (.switchNative _)
        · rw [hp]
          have : x.serialize = (scrambleSha256 cr.toHashes c.data.nonce (utf8 c.options.password)).getD [] := by
            cases hx : scrambleSha256 cr.toHashes c.data.nonce (utf8 c.options.password) with
            | none => rw [hx] at h2; exact absurd h2 (by simp)
            | some y => rw [hx] at h2; injection h2 with h2; subst h2; rfl
          rw [this]
          exact .inl (.switchSha2 _)
      · refine Talks.writePacket ?_
        refine ⟨_, h1, ?_⟩
        rcases h2 with ⟨hp, ha, h2⟩ | ⟨hp, h2⟩ | ⟨hp, h2⟩
        · exact absurd h2 (by simp)
        · rw [hp]
          have : ([] : Bytes) = (scrambleNative cr.toHashes c.data.nonce (utf8 c.options.password)).getD [] := by
            cases hx : scrambleNative cr.toHashes c.data.nonce (utf8 c.options.password) with
            | none => rfl
            | some y => rw [hx] at h2; exact absurd h2 (by simp)
          rw [this]
          exact .inl (.switchNative _)
        · rw [hp]
          have : ([] : Bytes) = (scrambleSha256 cr.toHashes c.data.nonce (utf8 c.options.password)).getD [] := by
            cases hx : scrambleSha256 cr.toHashes c.data.nonce (utf8 c.options.password) with
            | none => rfl
            | some y => rw [hx] at h2; exact absurd h2 (by simp)
          rw [this]
          exact .inl (.switchSha2 _)

theorem Talks.sendPassword :
    Talks o (fun b => Spec.Permitted cr o .sha2 b) 1 2 (Verif.sendPassword cr) := by
  unfold Verif.sendPassword
  refine Talks.get_bind fun c hc => ?_
  subst hc
  dsimp only
  by_cases hsec : c.options.secure = true
  · rw [if_pos hsec]
    exact (Talks.writePacket (.inr ⟨.secure, by simp, fun _ => hsec⟩)).mono (by omega) (by omega)
  · rw [if_neg hsec]
    refine Talks.bind (r := 1) (w := 1) (r' := 0) (w' := 1) (Talks.fetchKey (.inl .keyRequest))
      fun key => Talks.get_bind fun c' hc' => ?_
    refine Talks.ofOut_bind fun x hx => Talks.ofOut_bind fun enc he => Talks.writePacket ?_
    cases he' : cr.rsa key x with
    | ok y =>
      rw [he'] at he
      injection he with he
      subst he
      exact .inl (.encrypted key _ x y hx he')
    | err e => rw [he'] at he; exact absurd he (by simp)
    | panic => rw [he'] at he; exact absurd he (by simp)

theorem Talks.readVerdict {Q : Bytes → Prop} : Talks o Q 1 0 Verif.readVerdict := by
  unfold Verif.readVerdict
  refine Talks.bind (r := 1) (w := 0) (r' := 0) (w' := 0) Talks.readPacket fun res =>
    Talks.get_bind fun c hc => ?_
  split
  · exact Talks.fail _
  · refine Talks.ite (Talks.pure _) (Talks.ite ?_ (Talks.fail _))
    exact Talks.bind (r := 0) (w := 0) (r' := 0) (w' := 0) (Talks.liftP _) fun _ => Talks.fail _

theorem Talks.fullAuth :
    Talks o (fun b => Spec.Permitted cr o .sha2 b) 2 2 (Verif.fullAuth cr) :=
  Talks.bind (r := 1) (w := 2) (r' := 1) (w' := 0) Talks.sendPassword fun _ => Talks.readVerdict

/-- authentication with `n` units of fuel. -/
theorem Talks.continueAuth (n : Nat) :
    Talks o (fun b => ∃ p, (∀ f, o.authPlugin = some f → p = f) ∧ Spec.Permitted cr o p b)
      (n + 2) (n + 1) (Verif.continueAuth cr n) := by
  induction n with
  | zero => exact Talks.crash.mono (by omega) (by omega)
  | succ n ih =>
    unfold Verif.continueAuth
    refine Talks.get_bind fun c hc => ?_
    subst hc
    dsimp only
    refine (Talks.bind (r := 1) (w := 0) (r' := n + 2) (w' := n + 2) Talks.readPacket fun pk =>
      Talks.get_bind fun c2 hc2 => ?_).mono (by omega) (by omega)
    cases pk with
    | nil => exact (Talks.authFailure _).mono (by omega) (by omega)
    | cons b r =>
      dsimp only
      refine Talks.ite ((Talks.pure _).mono (by omega) (by omega)) ?_
      by_cases hb : b = 0x01 ∧ c.options.authPlugin.getD c.data.authPlugin = .sha2
      · rw [if_pos hb]
        split
        · exact (Talks.fail _).mono (by omega) (by omega)
        · refine Talks.ite ?_ (Talks.ite ?_ ((Talks.fail _).mono (by omega) (by omega)))
          · refine (Talks.bind (r := 1) (w := 0) (r' := 0) (w' := 0) Talks.readPacket fun _ =>
              Talks.pure _).mono (by omega) (by omega)
          · refine (Talks.fullAuth.mono (by omega) (by omega)).weaken fun b hb' => ⟨.sha2, ?_, hb'⟩
            intro f hf
            have := hb.2
            rw [hf] at this
            exact this.symm
      · rw [if_neg hb]
        refine Talks.ite ?_ ((Talks.authFailure _).mono (by omega) (by omega))
        refine (Talks.bind (Talks.liftP _) fun sw => Talks.bind (Talks.switchAuth sw) fun _ =>
          ih).mono (by omega) (by omega)
    

theorem Talks.login (alnum : Char → Bool) :
    Talks o (fun b => ∃ p, (∀ f, o.authPlugin = some f → p = f) ∧ Spec.Permitted cr o p b)
      5 4 (Verif.login cr alnum) :=
  Talks.bind (r := 1) (w := 0) (r' := 4) (w' := 4) (Talks.handleHandshake alnum) fun _ =>
    Talks.bind (r := 0) (w := 1) (r' := 4) (w' := 3) Talks.doHandshakeResponse fun _ =>
      Talks.continueAuth 2

end
end Verif

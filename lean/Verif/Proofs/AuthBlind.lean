import Verif.Proofs.Blind

/-!
# Authentication sees the password only through digests and encryption
-/

namespace Verif

/-- two passwords that all challenge responses and encryptions answer alike. -/
structure SameAnswers (cr : Crypto) (p₁ p₂ : Str) : Prop where
  native : ∀ nonce, scrambleNative cr.toHashes nonce (utf8 p₁) = scrambleNative cr.toHashes nonce (utf8 p₂)
  sha2 : ∀ nonce, scrambleSha256 cr.toHashes nonce (utf8 p₁) = scrambleSha256 cr.toHashes nonce (utf8 p₂)
  rsa : ∀ (key : PublicKey) (nonce : Bytes),
    (xorNonce (utf8 p₁ ++ [0]) nonce >>= fun x => (cr.rsa key x).mapErr
      fun e => Error.protocol (.serialize (.encryption e))) =
    (xorNonce (utf8 p₂ ++ [0]) nonce >>= fun x => (cr.rsa key x).mapErr
      fun e => Error.protocol (.serialize (.encryption e)))

namespace Sim

variable {cr : Crypto} {o : Options} {p₁ p₂ : Str}

theorem genData_eq (hs : SameAnswers cr p₁ p₂) (hc : o.allowCleartext = false)
    (p : AuthPlugin) (nonce : Bytes) :
    p.genData cr (utf8 p₁) nonce { o with password := p₁ } =
      p.genData cr (utf8 p₂) nonce { o with password := p₂ } := by
  unfold AuthPlugin.genData
  dsimp only
  rw [hs.native, hs.sha2, hc]
  rfl

theorem doHandshakeResponse (hs : SameAnswers cr p₁ p₂) (hc : o.allowCleartext = false) :
    Sim o p₁ p₂ (Verif.doHandshakeResponse cr) := by
  unfold Verif.doHandshakeResponse
  refine get_bind ?_
  rintro c₁ c₂ ⟨h1, rfl⟩
  dsimp only
  rw [h1]
  dsimp only
  rw [genData_eq hs hc]
  exact bind (ofOut _) (fun d => writePacket _) c₁ _ ⟨h1, rfl⟩

theorem switchAuth (hs : SameAnswers cr p₁ p₂) (hc : o.allowCleartext = false) (sw : AuthSwitch) :
    Sim o p₁ p₂ (Verif.switchAuth cr sw) := by
  unfold Verif.switchAuth
  refine get_bind' (fun c => ?_) ?_
  · refine ite crash (bind (modify ?_) fun _ => get_bind ?_)
    · rintro c₁ c₂ ⟨h1, rfl⟩
      exact ⟨h1, rfl⟩
    · rintro c₁ c₂ ⟨h1, rfl⟩
      dsimp only
      rw [h1]
      dsimp only
      rw [genData_eq hs hc]
      refine bind (ofOut _) (fun d => ?_) c₁ _ ⟨h1, rfl⟩
      cases d with
      | none => exact writePacket _
      | some d => exact writePacket _
  · rintro c₁ c₂ ⟨h1, rfl⟩
    rfl

theorem sendPassword (hs : SameAnswers cr p₁ p₂) (hsec : o.secure = false) :
    Sim o p₁ p₂ (Verif.sendPassword cr) := by
  unfold Verif.sendPassword
  refine get_bind ?_
  rintro c₁ c₂ ⟨h1, rfl⟩
  dsimp only
  rw [h1]
  dsimp only
  have hne : ¬ o.secure = true := by simp [hsec]
  rw [if_neg hne, if_neg hne]
  -- the two continuations use different passwords
  have key : ∀ k : PublicKey, ∀ d₁ d₂, SameBut o p₁ p₂ d₁ d₂ →
      ∀ (f : Str → M Unit), (∀ p, f p = (do
          let c ← SM.get
          let x ← SM.ofOut (xorNonce (utf8 p ++ [0]) c.data.nonce)
          let enc ← SM.ofOut ((cr.rsa k x).mapErr
            fun e => .protocol (.serialize (.encryption e)))
          Verif.writePacket enc)) →
      (f p₁ d₁).1 = (f p₂ d₂).1 ∧ SameBut o p₁ p₂ (f p₁ d₁).2 (f p₂ d₂).2 := by
    rintro k d₁ d₂ hd f hf
    have hform : ∀ p d, f p d = ((SM.ofOut (xorNonce (utf8 p ++ [0]) d.data.nonce >>= fun x =>
        (cr.rsa k x).mapErr fun e => Error.protocol (.serialize (.encryption e)))
        >>= fun enc => Verif.writePacket enc : M Unit) d) := by
      intro p d
      rw [hf p, SM.get_bind_apply]
      cases xorNonce (utf8 p ++ [0]) d.data.nonce <;> rfl
    rw [hform, hform, hs.rsa]
    have : d₂.data = d₁.data := by rw [hd.2]
    rw [this]
    exact bind (ofOut _) (fun _ => writePacket _) d₁ d₂ hd
  have hk := fetchKey (o := o) (p₁ := p₁) (p₂ := p₂) c₁
    { c₁ with options := { o with password := p₂ } } ⟨h1, rfl⟩
  obtain ⟨hk1, hk2⟩ := hk
  rw [SM.bind_apply, SM.bind_apply]
  match e1 : Verif.fetchKey c₁,
      e2 : Verif.fetchKey { c₁ with options := { o with password := p₂ } } with
  | (.ok a, s), (x, t) =>
    rw [e1, e2] at hk1 hk2
    subst hk1
    exact key a s t hk2 (fun p => (do
          let c ← SM.get
          let x ← SM.ofOut (xorNonce (utf8 p ++ [0]) c.data.nonce)
          let enc ← SM.ofOut ((cr.rsa a x).mapErr
            fun e => .protocol (.serialize (.encryption e)))
          Verif.writePacket enc)) (fun _ => rfl)
  | (.err a, s), (x, t) =>
    rw [e1, e2] at hk1 hk2
    subst hk1
    exact ⟨rfl, hk2⟩
  | (.panic, s), (x, t) =>
    rw [e1, e2] at hk1 hk2
    subst hk1
    exact ⟨rfl, hk2⟩

theorem readVerdict : Sim o p₁ p₂ Verif.readVerdict := by
  unfold Verif.readVerdict
  refine bind readPacket fun res => get_bind' (fun c => ?_) ?_
  · split
    · exact fail _
    · exact ite (pure _) (ite (bind (liftP _) fun _ => fail _) (fail _))
  · rintro c₁ c₂ ⟨h1, rfl⟩
    rfl

theorem continueAuth (hs : SameAnswers cr p₁ p₂) (hc : o.allowCleartext = false)
    (hsec : o.secure = false) (n : Nat) : Sim o p₁ p₂ (Verif.continueAuth cr n) := by
  induction n with
  | zero => exact crash
  | succ n ih =>
    unfold Verif.continueAuth
    refine get_bind' (fun c => ?_) ?_
    · refine bind readPacket fun pk => get_bind' (fun c2 => ?_) ?_
      · cases pk with
        | nil => exact authFailure _
        | cons b r =>
          refine ite (pure _) (ite ?_ (ite ?_ (authFailure _)))
          · cases r with
            | nil => exact fail _
            | cons s r =>
              exact ite (bind readPacket fun _ => pure _)
                (ite (bind (sendPassword hs hsec) fun _ => readVerdict) (fail _))
          · exact bind (liftP _) fun sw => bind (switchAuth hs hc sw) fun _ => ih
      · rintro c₁ c₂ ⟨h1, rfl⟩
        rfl
    · rintro c₁ c₂ ⟨h1, rfl⟩
      dsimp only
      rw [h1]

theorem login (hs : SameAnswers cr p₁ p₂) (hc : o.allowCleartext = false)
    (hsec : o.secure = false) (alnum : Char → Bool) : Sim o p₁ p₂ (Verif.login cr alnum) :=
  bind (handleHandshake alnum) fun _ => bind (doHandshakeResponse hs hc) fun _ =>
    continueAuth hs hc hsec 2

end Sim
end Verif

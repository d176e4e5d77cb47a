import Verif.Proofs.Auth
import Verif.Props.C28_Password

/-!
# C30 Authentication always terminates after at most one switch

The recursion of `continue_auth` through `perform_auth_switch` is the only loop of the login; the
model bounds it by fuel.
-/

namespace Verif

theorem continueAuth_switched (cr : Crypto) (n : Nat) (c : Conn)
    (hc : c.data.authSwitched = true) :
    continueAuth cr (n + 1) c = continueAuth cr 1 c := by
  conv => lhs; unfold continueAuth
  conv => rhs; unfold continueAuth
  rw [SM.get_bind_apply, SM.get_bind_apply]
  dsimp only
  rw [SM.bind_apply, SM.bind_apply]
  match e : readPacket c with
  | (.ok pk, c') =>
    have hd : c'.data.authSwitched = true := by
      have := readPacket_data c
      rw [e] at this
      rw [this]; exact hc
    dsimp only
    rw [SM.get_bind_apply, SM.get_bind_apply]
    cases pk with
    | nil => rfl
    | cons b r =>
      dsimp only
      have hne : ¬ (b = 0xFE ∧ c'.data.authSwitched = false) := by rw [hd]; simp
      rw [if_neg hne, if_neg hne]
  | (.err _, _) => rfl
  | (.panic, _) => rfl

theorem switchAuth_ok {cr : Crypto} {sw : AuthSwitch} {c c' : Conn}
    (hs : switchAuth cr sw c = (.ok (), c')) :
    c.data.authSwitched = false ∧ c'.data.authSwitched = true := by
  unfold switchAuth at hs
  rw [SM.get_bind_apply] at hs
  by_cases hc : c.data.authSwitched = true
  · rw [if_pos hc] at hs
    exact absurd (congrArg Prod.fst hs) (by simp)
  · rw [if_neg hc, SM.modify_bind_apply, SM.get_bind_apply] at hs
    refine ⟨by simpa using hc, ?_⟩
    obtain ⟨d, s, h1, h2⟩ := SM.bind_eq_ok.1 hs
    have hs' : s = { c with data := { c.data with
        authSwitched := true, authPlugin := sw.plugin, nonce := sw.data } } := by
      have := congrArg Prod.snd h1
      exact this.symm
    have hw : ∀ bs, writePacket bs s = (.ok (), c') → c'.data = s.data := by
      intro bs hb
      obtain ⟨t, f, q, x, g1, _⟩ := writePacket_gen bs s
      rw [g1] at hb
      have := congrArg (fun x => x.2.data) hb
      exact this.symm
    have : c'.data = s.data := by
      cases d with
      | none => exact hw _ h2
      | some d => exact hw _ h2
    rw [this, hs']

/-- **C30** (termination): two rounds are enough whatever the server sends.  More fuel never changes
the outcome, so the recursion of the code ends by itself. -/
theorem C30_terminates (cr : Crypto) (n : Nat) (c : Conn) :
    continueAuth cr (n + 2) c = continueAuth cr 2 c := by
  conv => lhs; unfold continueAuth
  conv => rhs; unfold continueAuth
  rw [SM.get_bind_apply, SM.get_bind_apply]
  dsimp only
  rw [SM.bind_apply, SM.bind_apply]
  match readPacket c with
  | (.ok pk, c') =>
    dsimp only
    rw [SM.get_bind_apply, SM.get_bind_apply]
    cases pk with
    | nil => rfl
    | cons b r =>
      dsimp only
      by_cases hb : b = 0xFE ∧ c'.data.authSwitched = false
      · rw [if_pos hb, if_pos hb]
        have : ((liftP (runP AuthSwitch.deserialize (b :: r)) >>= fun sw => do
            switchAuth cr sw
            continueAuth cr (n + 1)) : M Unit) c' =
          ((liftP (runP AuthSwitch.deserialize (b :: r)) >>= fun sw => do
            switchAuth cr sw
            continueAuth cr 1) : M Unit) c' := by
          unfold liftP
          cases runP AuthSwitch.deserialize (b :: r) with
          | ok sw =>
            show (switchAuth cr sw >>= fun _ => continueAuth cr (n + 1)) c' =
              (switchAuth cr sw >>= fun _ => continueAuth cr 1) c'
            rw [SM.bind_apply, SM.bind_apply]
            match e : switchAuth cr sw c' with
            | (.ok (), s) => exact continueAuth_switched cr n s (switchAuth_ok e).2
            | (.err _, _) => rfl
            | (.panic, _) => rfl
          | err e => rfl
          | panic => rfl
        have h0 : ¬ b = 0 := by rw [hb.1]; decide
        have h1 : ∀ p : Prop, ¬ (b = 1 ∧ p) := by rw [hb.1]; simp
        rw [if_neg h0, if_neg h0, if_neg (h1 _), if_neg (h1 _)]
        exact this
      · rw [if_neg hb, if_neg hb]
  | (.err _, _) => rfl
  | (.panic, _) => rfl

/-- **C30** (bounded conversation): for every server byte stream, logging in makes at most five
attempts to read a packet and sends at most four packets. -/
theorem C30_bounded (cr : Crypto) (alnum : Char → Bool) (c : Conn) :
    Spec.ReadSteps 5 c.rx (login cr alnum c).2.rx ∧
    ∃ (ps : List (UInt8 × Bytes)) (t : Bytes), ps.length ≤ 4 ∧
      (login cr alnum c).2.tx = c.tx ++ t ∧ t <+: Spec.wire ps := by
  obtain ⟨_, h2, ps, t, h3, _, h5, h6, _⟩ := Talks.login (cr := cr) alnum c rfl
  exact ⟨h2, ps, t, h3, h5, h6⟩

/-- **C30** (a second switch is an error): once a switch has been honoured, another request
(any packet that starts with 0xFE) ends authentication with an error and nothing is sent. -/
theorem C30_second_switch (cr : Crypto) (n : Nat) (c c' : Conn) (r : Bytes)
    (hs : c.data.authSwitched = true) (hr : readPacket c = (.ok (0xFE :: r), c')) :
    continueAuth cr (n + 1) c = (.err (.protocol (.unexpectedPacket (0xFE :: r))), c') ∧
      c'.tx = c.tx := by
  have htx : c'.tx = c.tx := by have := (readOnly_readPacket c).1; rw [hr] at this; exact this
  have hd : c'.data.authSwitched = true := by
    have := readPacket_data c
    rw [hr] at this
    rw [this]; exact hs
  refine ⟨?_, htx⟩
  unfold continueAuth
  rw [SM.get_bind_apply, SM.bind_of_ok hr, SM.get_bind_apply]
  dsimp only
  rw [if_neg (by decide), if_neg (by simp), if_neg (by rw [hd]; simp)]
  have he : ∃ e, runP (ErrPacket.deserialize c'.data.capabilities) (0xFE :: r) = .err e := by
    unfold runP ErrPacket.deserialize
    by_cases hl : (0xFE :: r : Bytes).length < 3
    · have h1 : P.checkLen 3 (0xFE :: r) = (.err .eof, 0xFE :: r) := by
        unfold P.checkLen
        rw [if_pos hl]
      rw [SM.bind_of_err h1]
      exact ⟨_, rfl⟩
    · have h1 : P.checkLen 3 (0xFE :: r) = (.ok (), 0xFE :: r) := by
        unfold P.checkLen
        rw [if_neg hl]
      have h2 : P.eatU8 (0xFE :: r) = (.ok 0xFE, r) := by
        unfold P.eatU8 P.eatNat
        rw [SM.bind_apply, SM.bind_apply]
        unfold P.eat
        rw [if_pos (by simp)]
        rfl
      rw [SM.bind_of_ok h1, SM.bind_of_ok h2, if_pos (by decide)]
      exact ⟨_, rfl⟩
  obtain ⟨e, he⟩ := he
  unfold authFailure
  rw [SM.get_bind_apply, he]
  rfl

/-- concrete case: a server that keeps asking to switch. -/
example :
    (login C28.crypto C28.asciiAlnum (Conn.initial C28.opts (rxOf (Spec.frames 0 C28.handshake ++
      Spec.frames 2 ([0xFE] ++ ascii "caching_sha2_password" ++ [0, 1, 2, 3]) ++
      Spec.frames 4 ([0xFE] ++ ascii "mysql_native_password" ++ [0, 1, 2, 3]))) [])).1 =
    .err (.protocol (.unexpectedPacket ([0xFE] ++ ascii "mysql_native_password" ++ [0, 1, 2, 3]))) := by
  decide +kernel

end Verif

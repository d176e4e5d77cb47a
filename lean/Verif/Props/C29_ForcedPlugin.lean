import Verif.Proofs.Auth
import Verif.Props.C28_Password

/-!
# C29 A configured authentication plugin is never overridden by the server
-/

namespace Verif

/-- **C29**.  If the options fix plugin `f`, then for every server behaviour everything written while
logging in consists of packets that are answers of plugin `f`. -/
theorem C29_only_forced (cr : Crypto) (alnum : Char → Bool) (c : Conn) (f : AuthPlugin)
    (hf : c.options.authPlugin = some f) :
    ∃ (ps : List (UInt8 × Bytes)) (t : Bytes),
      (∀ p ∈ ps, Spec.Permitted cr c.options f p.2) ∧
      (login cr alnum c).2.tx = c.tx ++ t ∧ t <+: Spec.wire ps := by
  obtain ⟨_, _, ps, t, _, h4, h5, h6, _⟩ := Talks.login (cr := cr) alnum c rfl
  refine ⟨ps, t, fun p hp => ?_, h5, h6⟩
  obtain ⟨pl, hp1, hpl⟩ := h4 p hp
  rw [hp1 f hf] at hpl
  exact hpl

/-- what a request to switch to plugin `g` looks like. -/
def Spec.switchRequest (g : AuthPlugin) (nonce : Bytes) : Bytes :=
  [0xFE] ++ (match g with
    | .clear => ascii "mysql_clear_password"
    | .native => ascii "mysql_native_password"
    | .sha2 => ascii "caching_sha2_password") ++ [0] ++ nonce

theorem switchRequest_deserialize (g : AuthPlugin) (nonce : Bytes) :
    runP AuthSwitch.deserialize (Spec.switchRequest g nonce) =
      .ok { plugin := g, data := stripNul nonce } := by
  have hn : ∀ name : Bytes, name.all (· != 0) = true → ∀ g, AuthPlugin.fromBytes name = .ok g →
      runP AuthSwitch.deserialize ([0xFE] ++ name ++ [0] ++ nonce) =
        .ok { plugin := g, data := stripNul nonce } := by
    intro name hz g hg
    have hlen : (name ++ (0 :: nonce)).findIdx (· == 0) = name.length := by
      rw [List.findIdx_append]
      have : name.findIdx (· == 0) = name.length := by
        rw [List.findIdx_eq_length]
        intro x hx
        have := List.all_eq_true.1 hz x hx
        simpa using this
      rw [this]
      simp [List.findIdx_cons]
    show (AuthSwitch.deserialize _).1 = _
    unfold AuthSwitch.deserialize P.skip
    rw [SM.modify_bind_apply]
    have e1 : List.drop (min 1 ([0xFE] ++ name ++ [0] ++ nonce).length)
        ([0xFE] ++ name ++ [0] ++ nonce) = name ++ (0 :: nonce) := by
      simp
    rw [e1]
    have e2 : P.eatNullSlice (name ++ (0 :: nonce)) = (.ok name, nonce) := by
      unfold P.eatNullSlice
      dsimp only
      rw [hlen, if_pos (by simp)]
      simp
    have e3 : AuthPlugin.deserialize (name ++ (0 :: nonce)) = (.ok g, nonce) := by
      unfold AuthPlugin.deserialize
      rw [SM.bind_of_ok e2, hg]
      rfl
    rw [SM.bind_of_ok e3]
    rfl
  cases g
  · exact hn (ascii "mysql_clear_password") (by decide +kernel) .clear (by decide +kernel)
  · exact hn (ascii "mysql_native_password") (by decide +kernel) .native (by decide +kernel)
  · exact hn (ascii "caching_sha2_password") (by decide +kernel) .sha2 (by decide +kernel)

/-- **C29** (a request to switch to another plugin).  At any point where authentication waits for
the server, a request to switch to a plugin other than the configured one makes it fail with the
mismatch, and no further byte is sent. -/
theorem C29_switch_refused (cr : Crypto) (n : Nat) (c c' : Conn) (f g : AuthPlugin)
    (nonce : Bytes) (hf : c.options.authPlugin = some f) (hg : g ≠ f)
    (hr : readPacket c = (.ok (Spec.switchRequest g nonce), c')) (hs : c.data.authSwitched = false) :
    (continueAuth cr (n + 1) c).1 = .err (.runtime (.authPluginMismatch f g)) ∧
      (continueAuth cr (n + 1) c).2.tx = c.tx := by
  have htx : c'.tx = c.tx := by have := (readOnly_readPacket c).1; rw [hr] at this; exact this
  have hdata : c'.data = c.data := by have := readPacket_data c; rw [hr] at this; exact this
  have hopt : c'.options = c.options := by have := readPacket_options c; rw [hr] at this; exact this
  have hd := switchRequest_deserialize g nonce
  have hcons : Spec.switchRequest g nonce = 0xFE :: (Spec.switchRequest g nonce).tail := by
    cases g <;> rfl
  have hgen : g.genData cr (utf8 c'.options.password) (stripNul nonce) c'.options =
      .err (.runtime (.authPluginMismatch f g)) := by
    unfold AuthPlugin.genData
    rw [hopt, hf]
    simp [hg]
  have hsw : switchAuth cr { plugin := g, data := stripNul nonce } c' =
      (.err (.runtime (.authPluginMismatch f g)), { c' with data := { c'.data with
        authSwitched := true, authPlugin := g, nonce := stripNul nonce } }) := by
    unfold switchAuth
    rw [SM.get_bind_apply, if_neg (by rw [hdata, hs]; simp), SM.modify_bind_apply,
      SM.get_bind_apply]
    dsimp only
    rw [hgen]
    rfl
  unfold continueAuth
  rw [SM.get_bind_apply, SM.bind_of_ok hr, SM.get_bind_apply]
  rw [hcons] at hd ⊢
  dsimp only
  rw [if_neg (by decide), if_neg (by simp), if_pos ⟨rfl, by rw [hdata, hs]⟩, hd]
  have hl : liftP (Out.ok ({ plugin := g, data := stripNul nonce } : AuthSwitch)) c' =
      (.ok { plugin := g, data := stripNul nonce }, c') := rfl
  rw [SM.bind_of_ok hl, SM.bind_of_err hsw]
  exact ⟨rfl, htx⟩

/-- concrete case: the options fix `mysql_native_password`, the server asks for the clear one (and
cleartext passwords are even allowed). -/
example :
    (C28.run { C28.opts with authPlugin := some .native, allowCleartext := true }).1 =
      .err (.runtime (.authPluginMismatch .native .clear)) ∧
    (C28.run { C28.opts with authPlugin := some .native, allowCleartext := true }).2.tx.length =
      4 + 32 + 2 + 21 + 22 := by
  decide +kernel

end Verif

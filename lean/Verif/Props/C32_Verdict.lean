import Verif.Proofs.Auth
import Verif.Props.C28_Password

/-!
# C32 connect() succeeds only if the server accepted the credentials
-/

namespace Verif

/-- the last packet that was read before reaching state `c`. -/
def Spec.LastPacket (p : Bytes) (c : Conn) : Prop := ∃ c₀, readPacket c₀ = (.ok p, c)

/-- `0x00` is the header of an OK packet. -/
def Spec.isOkPacket (p : Bytes) : Prop := p.head? = some 0

/-- the packet before the last one was the SHA-2 plugin's "fast authentication succeeded". -/
def Spec.FastPath (p : Bytes) (c : Conn) : Prop :=
  ∃ c₀ q, readPacket c₀ = (.ok p, c) ∧ Spec.LastPacket (1 :: 3 :: q) c₀

theorem fullAuth_ok {cr : Crypto} {c c' : Conn} (h : fullAuth cr c = (.ok (), c')) :
    ∃ p, Spec.LastPacket p c' ∧ Spec.isOkPacket p := by
  obtain ⟨_, s, _, h2⟩ := SM.bind_eq_ok.1 h
  obtain ⟨p, s2, h3, h4⟩ := SM.bind_eq_ok.1 h2
  rw [SM.get_bind_apply] at h4
  cases p with
  | nil => exact absurd (congrArg Prod.fst h4) (by simp)
  | cons b r =>
    dsimp only at h4
    by_cases hb : b = 0
    · subst hb
      rw [if_pos rfl] at h4
      have : s2 = c' := congrArg Prod.snd h4
      subst this
      exact ⟨_, ⟨s, h3⟩, rfl⟩
    · rw [if_neg hb] at h4
      by_cases hf : b = 0xFF
      · rw [if_pos hf] at h4
        obtain ⟨_, _, _, h6⟩ := SM.bind_eq_ok.1 h4
        exact absurd (congrArg Prod.fst h6) (by simp)
      · rw [if_neg hf] at h4
        exact absurd (congrArg Prod.fst h4) (by simp)

theorem authFailure_not_ok {α : Type} {p : Bytes} {c c' : Conn} {a : α}
    (h : authFailure p c = (.ok a, c')) : False := by
  unfold authFailure at h
  rw [SM.get_bind_apply] at h
  cases hr : runP (ErrPacket.deserialize c.data.capabilities) p <;> rw [hr] at h <;>
    exact absurd (congrArg Prod.fst h) (by simp [SM.fail, SM.crash])

theorem continueAuth_ok {cr : Crypto} (n : Nat) {c c' : Conn}
    (h : continueAuth cr n c = (.ok (), c')) :
    ∃ p, Spec.LastPacket p c' ∧ (Spec.isOkPacket p ∨ Spec.FastPath p c') := by
  induction n generalizing c with
  | zero => exact absurd (congrArg Prod.fst h) (by simp [continueAuth])
  | succ n ih =>
    unfold continueAuth at h
    rw [SM.get_bind_apply] at h
    obtain ⟨p, s, h1, h2⟩ := SM.bind_eq_ok.1 h
    rw [SM.get_bind_apply] at h2
    cases p with
    | nil => exact (authFailure_not_ok h2).elim
    | cons b r =>
      dsimp only at h2
      by_cases h0 : b = 0
      · subst h0
        rw [if_pos rfl] at h2
        have : s = c' := congrArg Prod.snd h2
        subst this
        exact ⟨_, ⟨c, h1⟩, .inl rfl⟩
      · rw [if_neg h0] at h2
        split at h2
        · rename_i hb
          cases r with
          | nil => exact absurd (congrArg Prod.fst h2) (by simp)
          | cons t r =>
            dsimp only at h2
            by_cases h3 : t = 3
            · rw [if_pos h3] at h2
              obtain ⟨q, s2, h5, h6⟩ := SM.bind_eq_ok.1 h2
              have : s2 = c' := congrArg Prod.snd h6
              subst this
              refine ⟨q, ⟨s, h5⟩, .inr ⟨s, r, h5, ⟨c, ?_⟩⟩⟩
              rw [h1, hb.1, h3]
            · rw [if_neg h3] at h2
              by_cases h4 : t = 4
              · rw [if_pos h4] at h2
                obtain ⟨p, hp1, hp2⟩ := fullAuth_ok h2
                exact ⟨p, hp1, .inl hp2⟩
              · rw [if_neg h4] at h2
                exact absurd (congrArg Prod.fst h2) (by simp)
        · split at h2
          · obtain ⟨sw, s2, _, h5⟩ := SM.bind_eq_ok.1 h2
            obtain ⟨_, s3, _, h7⟩ := SM.bind_eq_ok.1 h5
            exact ih h7
          · exact (authFailure_not_ok h2).elim

/-- **C32**, the part that holds: if the login succeeds, the last packet of the server was an OK
packet, or it is whatever followed the SHA-2 plugin's "fast authentication succeeded".  Missing: in
the second case the code does not look at the packet. -/
theorem C32_accepted_partial (cr : Crypto) (alnum : Char → Bool) (c c' : Conn)
    (h : login cr alnum c = (.ok (), c')) :
    ∃ p, Spec.LastPacket p c' ∧ (Spec.isOkPacket p ∨ Spec.FastPath p c') := by
  obtain ⟨_, s, _, h2⟩ := SM.bind_eq_ok.1 h
  obtain ⟨_, s2, _, h4⟩ := SM.bind_eq_ok.1 h2
  exact continueAuth_ok 2 h4

/-- **C32**, without SHA-2: if the configured plugin is another one, success means an OK packet. -/
theorem C32_native_accepted (cr : Crypto) (alnum : Char → Bool) (c c' : Conn) (f : AuthPlugin)
    (hf : c.options.authPlugin = some f) (hn : f ≠ .sha2)
    (h : login cr alnum c = (.ok (), c')) :
    ∃ p, Spec.LastPacket p c' ∧ Spec.isOkPacket p := by
  obtain ⟨_, s, hs1, h2⟩ := SM.bind_eq_ok.1 h
  obtain ⟨_, s2, hs2, h4⟩ := SM.bind_eq_ok.1 h2
  have ho1 : s.options = c.options := by
    have := (Talks.handleHandshake (o := c.options) (Q := fun _ => True) alnum c rfl).1
    rw [hs1] at this; exact this
  have ho2 : s2.options = c.options := by
    have := (Talks.doHandshakeResponse (cr := cr) (o := s.options) s rfl).1
    rw [hs2] at this; rw [← ho1]; exact this
  have key : ∀ n c, c.options.authPlugin = some f → ∀ c', continueAuth cr n c = (.ok (), c') →
      ∃ p, Spec.LastPacket p c' ∧ Spec.isOkPacket p := by
    intro n
    induction n with
    | zero =>
      intro c _ c' h
      exact absurd (congrArg Prod.fst h) (by simp [continueAuth])
    | succ n ih =>
      intro c hc c' h
      unfold continueAuth at h
      rw [SM.get_bind_apply] at h
      obtain ⟨p, s, h1, h2⟩ := SM.bind_eq_ok.1 h
      rw [SM.get_bind_apply] at h2
      have hso : s.options = c.options := by
        have := readPacket_options c; rw [h1] at this; exact this
      cases p with
      | nil => exact (authFailure_not_ok h2).elim
      | cons b r =>
        dsimp only at h2
        by_cases h0 : b = 0
        · subst h0
          rw [if_pos rfl] at h2
          have : s = c' := congrArg Prod.snd h2
          subst this
          exact ⟨_, ⟨c, h1⟩, rfl⟩
        · rw [if_neg h0, if_neg (by rw [hc]; simp [hn])] at h2
          split at h2
          · obtain ⟨sw, s2, h8, h5⟩ := SM.bind_eq_ok.1 h2
            obtain ⟨_, s3, h6, h7⟩ := SM.bind_eq_ok.1 h5
            have hs2 : s2 = s := (congrArg Prod.snd h8).symm
            subst hs2
            refine ih s3 ?_ c' h7
            have := (Talks.switchAuth (cr := cr) (o := s2.options) sw s2 rfl).1
            rw [h6] at this
            rw [this, hso]; exact hc
          · exact (authFailure_not_ok h2).elim
  exact key 2 s2 (by rw [ho2]; exact hf) c' h4

namespace C32

def sha2Handshake : Bytes :=
  [10] ++ ascii "8.0.1" ++ [0] ++ [1, 0, 0, 0] ++ [1, 2, 3, 4, 5, 6, 7, 8] ++ [0] ++
  [0x00, 0x82] ++ [45] ++ [2, 0] ++ [0x08, 0x00] ++ [21] ++ List.replicate 10 0 ++
  [9, 10, 11, 12, 13, 14, 15, 16, 17, 18, 19, 20, 0] ++ ascii "caching_sha2_password" ++ [0]

/-- ERR 1045, state 28000, "Access denied". -/
def denied : Bytes := [0xFF, 0x15, 0x04] ++ ascii "#28000Access denied"

def okPacket : Bytes := [0, 0, 0, 2, 0, 0, 0]

def run (answers : List (UInt8 × Bytes)) : Out Error Unit × Conn :=
  login C28.crypto C28.asciiAlnum (Conn.initial C28.opts
    (rxOf (Spec.frames 0 sha2Handshake ++ Spec.wire answers)) [])

end C32

/-- **C32 is violated**: the server says "fast authentication succeeded" and then refuses the
connection with an error packet (it may, e.g. for a locked account or an unknown database): the
login reports success. -/
theorem C32_fast_path_violated :
    (C32.run [(2, [1, 3]), (3, C32.denied)]).1 = .ok () := by
  decide +kernel

/-- the same error packet at the other places is reported. -/
example : (C32.run [(2, C32.denied)]).1 =
    .err (.server (.error 1045 (some (ascii "28000")) "Access denied".toList)) := by
  decide +kernel

example : (C32.run [(2, [1, 3]), (3, C32.okPacket)]).1 = .ok () := by decide +kernel

end Verif

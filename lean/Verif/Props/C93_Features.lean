import Verif.Model.Features
import Verif.Props.C87_Connect

/-!
# C93: builds with fewer features

A build without `caching-sha2-password` logs in exactly with those conversations of the default build in which the server
never names that plugin; a build without `time` needs a function `sleep`.
-/

namespace Verif

open Spec (Turn Talk Put)

/-! ### the default build is the model of the other claims -/

theorem fromBytesIn_full (b : Build) (h : b.sha2 = true) : AuthPlugin.fromBytesIn b = AuthPlugin.fromBytes := by
  funext name
  unfold AuthPlugin.fromBytesIn AuthPlugin.fromBytes
  simp [h]

theorem switchIn_full (b : Build) (h : b.sha2 = true) : AuthSwitch.deserializeIn b = AuthSwitch.deserialize := by
  unfold AuthSwitch.deserializeIn AuthSwitch.deserialize AuthPlugin.deserializeIn AuthPlugin.deserialize
  rw [fromBytesIn_full b h]

theorem greetingIn_full (b : Build) (h : b.sha2 = true) : Handshake.deserializeIn b = Handshake.deserialize := by
  unfold Handshake.deserializeIn Handshake.deserialize
  rw [show Handshake.pluginIn b = Handshake.plugin by
    funext caps
    unfold Handshake.pluginIn Handshake.plugin
    rw [fromBytesIn_full b h]]

theorem continueAuthIn_full (b : Build) (h : b.sha2 = true) (cr : Crypto) (n : Nat) :
    continueAuthIn b cr n = continueAuth cr n := by
  induction n with
  | zero => rfl
  | succ n ih =>
    unfold continueAuthIn continueAuth
    rw [switchIn_full b h, ih]
    simp only [h, true_and]
    rfl

theorem handleHandshakeIn_full (b : Build) (h : b.sha2 = true) (sleep : Bool) (hs : b.time = true ∨ sleep = true)
    (alnum : Char → Bool) : handleHandshakeIn b sleep alnum = handleHandshake alnum := by
  unfold handleHandshakeIn handleHandshake
  rw [greetingIn_full b h, if_neg]
  · rfl
  · rintro ⟨h1, h2⟩
    rcases hs with h3 | h3
    · rw [h1] at h3; cases h3
    · rw [h2] at h3; cases h3

/-- with the feature, and a way to wait, connecting is what the other claims are about. -/
theorem C93_same (b : Build) (h : b.sha2 = true) (sleep : Bool) (hs : b.time = true ∨ sleep = true) (cr : Crypto)
    (alnum : Char → Bool) (fp : FloatParse) : connectIn b sleep cr alnum fp = connect cr alnum fp := by
  unfold connectIn connect loginIn login
  rw [handleHandshakeIn_full b h sleep hs, continueAuthIn_full b h]

/-- so it is with the default features, whether there is a function `sleep` or not. -/
theorem C93_default (sleep : Bool) (cr : Crypto) (alnum : Char → Bool) (fp : FloatParse) :
    connectIn .full sleep cr alnum fp = connect cr alnum fp :=
  C93_same .full rfl sleep (.inl rfl) cr alnum fp

/-! ### without `time` -/

/-- without the feature `time` and without a function `sleep` every call panics, before anything is read or written; … -/
theorem C93_no_sleep (b : Build) (h : b.time = false) (cr : Crypto) (alnum : Char → Bool) (fp : FloatParse) (c : Conn) :
    connectIn b false cr alnum fp c = (.panic, c) := by
  unfold connectIn loginIn handleHandshakeIn
  rw [if_pos ⟨h, rfl⟩, SM.bind_of_panic (s' := c)]
  rw [SM.bind_of_panic (s' := c)]
  rfl

/-- … with such a function the feature makes no difference. -/
theorem C93_sleep (s t t' : Bool) (cr : Crypto) (alnum : Char → Bool) (fp : FloatParse) :
    connectIn ⟨s, t⟩ true cr alnum fp = connectIn ⟨s, true⟩ t' cr alnum fp := by
  unfold connectIn loginIn handleHandshakeIn
  rw [if_neg (by simp), if_neg (by simp)]
  rfl

/-! ### without `caching-sha2-password` -/

/-- one parser gives up where the other finds something unwanted. -/
def Refrains {α : Type} (bad : α → Prop) (e : ProtocolError) (m' m : P α) : Prop :=
  ∀ s, (m' s = m s ∧ ∀ a r, m s = (.ok a, r) → ¬ bad a) ∨
    ∃ a r r', m s = (.ok a, r) ∧ bad a ∧ m' s = (.err e, r')

theorem Refrains.after {α β : Type} {bad : β → Prop} {e : ProtocolError} (f : P α) {g' g : α → P β}
    (h : ∀ a, Refrains bad e (g' a) (g a)) : Refrains bad e (f >>= g') (f >>= g) := by
  intro s
  cases hf : f s with
  | mk o r =>
    cases o with
    | ok a =>
      rw [SM.bind_of_ok hf, SM.bind_of_ok hf]
      exact h a r
    | err x =>
      rw [SM.bind_of_err hf, SM.bind_of_err hf]
      exact Or.inl ⟨rfl, fun a r h => by cases h⟩
    | panic =>
      rw [SM.bind_of_panic hf, SM.bind_of_panic hf]
      exact Or.inl ⟨rfl, fun a r h => by cases h⟩

/-- what follows a parser that refrains never panics or fails and keeps the unwanted. -/
theorem Refrains.before {α β : Type} {bad : α → Prop} {bad' : β → Prop} {e : ProtocolError} {m' m : P α} (k : α → P β)
    (h : Refrains bad e m' m) (hk : ∀ a s, ∃ x r, k a s = (.ok x, r) ∧ (bad' x ↔ bad a)) :
    Refrains bad' e (m' >>= k) (m >>= k) := by
  intro s
  rcases h s with ⟨h1, h2⟩ | ⟨a, r, r', h1, h2, h3⟩
  · refine Or.inl ⟨?_, fun x r hx => ?_⟩
    · cases hm : m s with
      | mk o r =>
        rw [hm] at h1
        cases o with
        | ok a => rw [SM.bind_of_ok h1, SM.bind_of_ok hm]
        | err x => rw [SM.bind_of_err h1, SM.bind_of_err hm]
        | panic => rw [SM.bind_of_panic h1, SM.bind_of_panic hm]
    · obtain ⟨a, s1, g1, g2⟩ := SM.bind_eq_ok.1 hx
      obtain ⟨y, r1, g3, g4⟩ := hk a s1
      rw [g3] at g2
      cases g2
      rw [g4]
      exact h2 a s1 g1
  · obtain ⟨x, r1, g1, g2⟩ := hk a r
    exact Or.inr ⟨x, r1, r', by rw [SM.bind_of_ok h1, g1], g2.2 h2, by rw [SM.bind_of_err h3]⟩

theorem Refrains.none {α : Type} {bad : α → Prop} {e : ProtocolError} (m : P α)
    (h : ∀ s a r, m s = (.ok a, r) → ¬ bad a) : Refrains bad e m m := fun s => Or.inl ⟨rfl, h s⟩

/-- the error for a plugin that is not there. -/
def noSha2 : ProtocolError := .unknownAuthPlugin (Spec.pluginName .sha2)

theorem refrains_name (b : Build) (h : b.sha2 = false) (name : Bytes) :
    Refrains (· = .sha2) noSha2 (SM.ofOut (AuthPlugin.fromBytesIn b name)) (SM.ofOut (AuthPlugin.fromBytes name)) := by
  intro s
  unfold AuthPlugin.fromBytesIn AuthPlugin.fromBytes
  dsimp only
  by_cases h1 : stripNul name = AuthPlugin.clear.name
  · rw [if_pos h1, if_pos h1]
    exact Or.inl ⟨rfl, fun a r h => by cases h; intro h; cases h⟩
  rw [if_neg h1, if_neg h1]
  by_cases h2 : stripNul name = AuthPlugin.native.name
  · rw [if_pos h2, if_pos h2]
    exact Or.inl ⟨rfl, fun a r h => by cases h; intro h; cases h⟩
  rw [if_neg h2, if_neg h2, if_neg (by simp [h])]
  by_cases h3 : stripNul name = AuthPlugin.sha2.name
  · rw [if_pos h3]
    refine Or.inr ⟨_, s, s, rfl, rfl, ?_⟩
    rw [h3]
    show (Out.err _, s) = (Out.err noSha2, s)
    unfold noSha2
    rw [show Spec.pluginName .sha2 = AuthPlugin.sha2.name by decide +kernel]
  · rw [if_neg h3]
    exact Or.inl ⟨rfl, fun a r h => by cases h⟩

theorem refrains_switch (b : Build) (h : b.sha2 = false) :
    Refrains (fun sw => sw.plugin = .sha2) noSha2 (AuthSwitch.deserializeIn b) AuthSwitch.deserialize := by
  unfold AuthSwitch.deserializeIn AuthSwitch.deserialize AuthPlugin.deserializeIn AuthPlugin.deserialize
  refine Refrains.after _ fun _ => ?_
  refine Refrains.before (bad := (· = .sha2)) _ (Refrains.after _ fun name => refrains_name b h name) fun p s => ?_
  exact ⟨_, _, rfl, Iff.rfl⟩

theorem refrains_greeting (b : Build) (h : b.sha2 = false) :
    Refrains (fun hs => hs.authPlugin = some .sha2) noSha2 (Handshake.deserializeIn b) Handshake.deserialize := by
  unfold Handshake.deserializeIn Handshake.deserialize
  iterate 15 refine Refrains.after _ fun _ => ?_
  refine Refrains.before (bad := (· = some .sha2)) _ ?_ fun p s => ⟨_, _, rfl, Iff.rfl⟩
  unfold Handshake.pluginIn Handshake.plugin
  split
  · refine Refrains.after _ fun name => ?_
    refine Refrains.before (bad := (· = .sha2)) _ (refrains_name b h name) fun p s => ⟨_, _, rfl, ?_⟩
    simp
  · refine Refrains.none _ fun s a r h => ?_
    cases h
    intro h
    cases h

/-- what `runP` makes of that. -/
theorem Refrains.runP {α : Type} {bad : α → Prop} {e : ProtocolError} {m' m : P α} (h : Refrains bad e m' m)
    (bs : Bytes) : (Verif.runP m' bs = Verif.runP m bs ∧ ∀ a, Verif.runP m bs = .ok a → ¬ bad a) ∨
      ∃ a, Verif.runP m bs = .ok a ∧ bad a ∧ Verif.runP m' bs = .err e := by
  unfold Verif.runP
  rcases h bs with ⟨h1, h2⟩ | ⟨a, r, r', h1, h2, h3⟩
  · refine Or.inl ⟨by rw [h1], fun a ha => ?_⟩
    exact h2 a (m bs).2 (by rw [← ha])
  · exact Or.inr ⟨a, by rw [h1], h2, by rw [h3]⟩

/-! ### conversations -/

/-- the last part of a login without the plugin. -/
def PlainClose : Rel Unit := fun _ d es t d' =>
  (t = .ok () ∧ (∃ u, es = [.got (0 :: u)]) ∧ d' = d) ∨ (∃ e p, t = .server e ∧ Refusal d p e ∧ es = [.got p] ∧ d' = d)

def PlainCont (cr : Crypto) : Nat → Rel Unit
  | 0 => fun _ d es t d' => es = [] ∧ t = .panic ∧ d' = d
  | n + 1 => fun o d es t d' => PlainClose o d es t d' ∨
    (d.authSwitched = false ∧ ∃ q p nonce xs, Spec.SwitchForm q p nonce ∧ p ≠ .sha2 ∧ Spec.Usable o p ∧
      es = .got q :: .put (Spec.response cr.toHashes o p nonce true) :: xs ∧
      PlainCont cr n o (Spec.switched d p nonce) xs t d')

theorem switchIn_iff (b : Build) (h : b.sha2 = false) (r : Bytes) (sw : AuthSwitch) :
    runP (AuthSwitch.deserializeIn b) (0xFE :: r) = .ok sw ↔
      Spec.SwitchForm (0xFE :: r) sw.plugin sw.data ∧ sw.plugin ≠ .sha2 := by
  rw [← switchForm_iff]
  rcases (refrains_switch b h).runP (0xFE :: r) with ⟨h1, h2⟩ | ⟨a, h1, h2, h3⟩
  · rw [h1]
    exact ⟨fun g => ⟨g, h2 _ g⟩, fun g => g.1⟩
  · rw [h3, h1]
    constructor
    · intro h
      cases h
    · rintro ⟨g, g2⟩
      cases g
      exact absurd h2 g2

theorem switchIn_calm (b : Build) (h : b.sha2 = false) (p : Bytes) : runP (AuthSwitch.deserializeIn b) p ≠ .panic := by
  rcases (refrains_switch b h).runP p with ⟨h1, h2⟩ | ⟨a, h1, h2, h3⟩
  · rw [h1]
    exact switch_calm p
  · rw [h3]
    intro h
    cases h

/-- what is done with a packet while the server decides. -/
def plain1 (b : Build) (cr : Crypto) (n : Nat) (d : ConnData) (packet : Bytes) : M Unit :=
  match packet with
  | [] => authFailure packet
  | x :: _ =>
    if x = 0x00 then pure ()
    else if x = 0xFE ∧ d.authSwitched = false then do
      let sw ← liftP (runP (AuthSwitch.deserializeIn b) packet)
      switchAuth cr sw
      continueAuthIn b cr n
    else authFailure packet

theorem does_plain1 (b : Build) (h : b.sha2 = false) (cr : Crypto) (n : Nat)
    (ih : Does (continueAuthIn b cr n) (PlainCont cr n)) (o0 : Options) (d0 : ConnData) (p : Bytes) :
    ∀ c t c', c.options = o0 → c.data = d0 → (plain1 b cr n d0 p c = (t.out, c') ↔
      ∃ ys d' c1, Talk c ys c1 ∧ PlainCont cr (n + 1) o0 d0 (.got p :: ys) t d' ∧ c' = { c1 with data := d' }) := by
  suffices H : ∃ R : Rel Unit, Does (plain1 b cr n d0 p) R ∧
      ∀ ys t d', R o0 d0 ys t d' ↔ PlainCont cr (n + 1) o0 d0 (.got p :: ys) t d' by
    obtain ⟨R, h1, h2⟩ := H
    rintro c t c' rfl rfl
    rw [h1]
    simp only [h2]
  have refusal : ∀ (p : Bytes), (∀ r, p ≠ 0 :: r) → (∀ r, p = 0xFE :: r → d0.authSwitched ≠ false) → ∀ ys t d',
      ((∃ e, Refusal d0 p e ∧ ys = [] ∧ t = Tell.server e ∧ d' = d0) ↔
        PlainCont cr (n + 1) o0 d0 (.got p :: ys) t d') := by
    intro p h0 h2 ys t d'
    constructor
    · rintro ⟨e, hr, rfl, rfl, rfl⟩
      exact Or.inl (Or.inr ⟨e, p, rfl, hr, rfl, rfl⟩)
    · rintro ((⟨_, ⟨u, he⟩, _⟩ | ⟨e, q, rfl, hr, he, rfl⟩) | ⟨hs, q, pl, nonce, xs, hq, _, _, he, _⟩)
      · cases he
        exact absurd rfl (h0 _)
      · cases he
        exact ⟨e, hr, rfl, rfl, rfl⟩
      · cases he
        obtain ⟨r, rfl⟩ := SwitchForm.fe hq
        exact absurd hs (h2 r rfl)
  unfold plain1
  cases p with
  | nil =>
    exact ⟨_, does_authFailure _, refusal _ (fun r h => by cases h) (fun r h => by cases h)⟩
  | cons x r =>
    dsimp only
    by_cases h0 : x = 0
    · subst h0
      rw [if_pos rfl]
      refine ⟨_, Does.pure _, fun ys t d' => ?_⟩
      constructor
      · rintro ⟨rfl, rfl, rfl⟩
        exact Or.inl (Or.inl ⟨rfl, ⟨r, rfl⟩, rfl⟩)
      · rintro ((⟨rfl, ⟨u, he⟩, rfl⟩ | ⟨e, q, rfl, hr, he, rfl⟩) | ⟨hs, q, pl, nonce, xs, hq, _, _, he, _⟩)
        · cases he
          exact ⟨rfl, rfl, rfl⟩
        · cases he
          obtain ⟨_, h⟩ := hr.ff
          cases h
        · cases he
          obtain ⟨_, h⟩ := SwitchForm.fe hq
          cases h
    · rw [if_neg h0]
      have nozero : ∀ r', x :: r ≠ 0 :: r' := by
        intro r' h
        cases h
        exact h0 rfl
      by_cases h2 : x = 0xFE ∧ d0.authSwitched = false
      · rw [if_pos h2]
        obtain ⟨rfl, hs⟩ := h2
        refine ⟨_, Does.ofOut_bind (mapErr_local _ _) fun sw =>
          Does.bind (S := fun _ => PlainCont cr n) (does_switchAuth cr sw) fun _ => ih, fun ys t d' => ?_⟩
        rw [mapErr_panic_iff]
        simp only [mapErr_ok_iff]
        constructor
        · rintro (⟨g, _⟩ | ⟨sw, hsw, ⟨e, rfl, ⟨h, _⟩ | ⟨_, _, _, h, _⟩⟩ | ⟨rfl, ⟨h, _⟩ | ⟨_, _, _, h, _⟩⟩ |
            ⟨_, xs, zs, d1, rfl, ⟨h, _⟩ | ⟨_, hu, rfl, _, rfl⟩, hc⟩⟩)
          · exact absurd g (switchIn_calm b h _)
          · rw [hs] at h; cases h
          · cases h
          · rw [hs] at h; cases h
          · cases h
          · rw [hs] at h; cases h
          · obtain ⟨g1, g2⟩ := (switchIn_iff b h _ _).1 hsw
            exact Or.inr ⟨hs, _, _, _, zs, g1, g2, hu, rfl, hc⟩
        · rintro ((⟨_, ⟨u, he⟩, _⟩ | ⟨e, q, rfl, hr, he, rfl⟩) | ⟨_, q, pl, nonce, xs, hq, hp, hu, he, hc⟩)
          · cases he
          · cases he
            obtain ⟨_, h⟩ := hr.ff
            cases h
          · cases he
            exact Or.inr ⟨⟨pl, nonce⟩, (switchIn_iff b h _ _).2 ⟨hq, hp⟩, Or.inr (Or.inr
              ⟨(), [_], xs, _, rfl, Or.inr ⟨hs, hu, rfl, rfl, rfl⟩, hc⟩)⟩
      · rw [if_neg h2]
        exact ⟨_, does_authFailure _, refusal _ nozero (fun r' h hs => by cases h; exact h2 ⟨rfl, hs⟩)⟩

theorem continueAuthIn_succ (b : Build) (h : b.sha2 = false) (cr : Crypto) (n : Nat) (c : Conn) :
    continueAuthIn b cr (n + 1) c = (readPacket >>= fun p => SM.get >>= fun c2 => plain1 b cr n c2.data p) c := by
  unfold continueAuthIn
  rw [SM.get_bind_apply]
  refine congrFun (congrArg (readPacket >>= ·) (funext fun p => congrArg (SM.get >>= ·) (funext fun c2 => ?_))) c
  unfold plain1
  cases p with
  | nil => rfl
  | cons x r =>
    dsimp only
    rw [if_neg (show ¬ (x = 1 ∧ b.sha2 = true ∧ c.options.authPlugin.getD c.data.authPlugin = .sha2) by simp [h])]

theorem does_continueAuthIn (b : Build) (h : b.sha2 = false) (cr : Crypto) (n : Nat) :
    Does (continueAuthIn b cr n) (PlainCont cr n) := by
  induction n with
  | zero => exact Does.crash
  | succ n ih =>
    intro c t c'
    rw [continueAuthIn_succ b h]
    constructor
    · intro g
      cases hr : readPacket c with
      | mk o c1 =>
        cases o with
        | ok p =>
          rw [SM.bind_of_ok hr, SM.get_bind_apply] at g
          have ht := (C76_packet _ _ _).1 hr
          have hk := Talk.keeps (es := [.got p]) ⟨c1, ht, rfl⟩
          rw [hk.1] at g
          obtain ⟨ys, d', c2, h2, h3, rfl⟩ := (does_plain1 b h cr n ih c.options c.data p c1 t c' hk.2.1 hk.1).1 g
          exact ⟨.got p :: ys, d', c2, ⟨_, ht, h2⟩, h3, rfl⟩
        | err e =>
          rw [SM.bind_of_err hr] at g
          cases t with
          | ok b => cases g
          | server e =>
            cases g
            exact absurd hr (Local.readPacket _ _ _)
          | panic => cases g
        | panic => exact absurd (congrArg Prod.fst hr) (readPacket_not_panic c)
    · rintro ⟨es, d', c1, h1, h2, rfl⟩
      have hh : ∃ p ys, es = .got p :: ys := by
        rcases h2 with (⟨_, ⟨u, rfl⟩, _⟩ | ⟨_, _, _, _, rfl, _⟩) | ⟨_, q, _, _, xs, _, _, _, rfl, _⟩ <;> exact ⟨_, _, rfl⟩
      obtain ⟨p, ys, rfl⟩ := hh
      obtain ⟨c2, h3, h4⟩ := h1
      rw [SM.bind_of_ok ((C76_packet _ _ _).2 h3), SM.get_bind_apply]
      have hk := Talk.keeps (es := [.got p]) ⟨c2, h3, rfl⟩
      rw [hk.1]
      exact (does_plain1 b h cr n ih c.options c.data p c2 t _ hk.2.1 hk.1).2 ⟨ys, d', c1, h4, h2, rfl⟩

/-- a greeting a build without the plugin can use. -/
def Spec.GreetsPlainly (alnum : Char → Bool) (o : Options) (g : Bytes) (d : ConnData) : Prop :=
  Spec.Greets alnum o g d ∧ d.authPlugin ≠ .sha2

theorem does_greetingIn (b : Build) (h : b.sha2 = false) (sleep : Bool) (hs : b.time = true ∨ sleep = true)
    (alnum : Char → Bool) : Does (handleHandshakeIn b sleep alnum) fun o d es t d' =>
    ∃ g, es = [.got g] ∧ ((Spec.GreetsPlainly alnum o g d' ∧ t = .ok ()) ∨
      ((∀ x, ¬ Spec.GreetsPlainly alnum o g x) ∧ t = .panic ∧ d' = d)) := by
  unfold handleHandshakeIn
  rw [if_neg (by rintro ⟨h1, h2⟩; rcases hs with h3 | h3 <;> simp_all)]
  refine (Does.read_bind (S := fun g o d ys t d' => ys = [] ∧ ((Spec.GreetsPlainly alnum o g d' ∧ t = .ok ()) ∨
      ((∀ x, ¬ Spec.GreetsPlainly alnum o g x) ∧ t = .panic ∧ d' = d))) fun g => ?_).weaken fun o d es t d' => ?_
  · have none : (∀ hs v, runP (Handshake.deserializeIn b) g = .ok hs → parseServerVersion alnum hs.serverVersion ≠ .ok v) →
        ∀ o x, ¬ Spec.GreetsPlainly alnum o g x := by
      rintro hn o x ⟨⟨hs, v, h1, h2, rfl⟩, h3⟩
      have h4 := (C73_greeting _ _).2 h1
      rcases (refrains_greeting b h).runP g with ⟨g1, g2⟩ | ⟨a, g1, g2, _⟩
      · exact hn hs v (g1.trans h4) h2
      · rw [h4] at g1
        cases g1
        refine h3 ?_
        show hs.authPlugin.getD .native = .sha2
        rw [g2]
        rfl
    have broken : (∀ o x, ¬ Spec.GreetsPlainly alnum o g x) → Does (SM.crash : M Unit) fun o d ys t d' => ys = [] ∧
        ((Spec.GreetsPlainly alnum o g d' ∧ t = .ok ()) ∨
          ((∀ x, ¬ Spec.GreetsPlainly alnum o g x) ∧ t = .panic ∧ d' = d)) := by
      intro h
      refine Does.crash.weaken fun o d es t d' => ?_
      constructor
      · rintro ⟨rfl, rfl, rfl⟩
        exact ⟨rfl, Or.inr ⟨h o, rfl, rfl⟩⟩
      · rintro ⟨rfl, ⟨g, _⟩ | ⟨_, rfl, rfl⟩⟩
        · exact absurd g (h _ _)
        · exact ⟨rfl, rfl, rfl⟩
    cases hd : runP (Handshake.deserializeIn b) g with
    | ok hs =>
      dsimp only
      cases hv : parseServerVersion alnum hs.serverVersion with
      | ok v =>
        refine (Does.modify (fun o _ => connDataOf o hs v) (fun c => rfl)).weaken fun o d es t d' => ?_
        have hfull : runP Handshake.deserialize g = .ok hs ∧ hs.authPlugin ≠ some .sha2 := by
          rcases (refrains_greeting b h).runP g with ⟨g1, g2⟩ | ⟨a, _, _, g3⟩
          · rw [← g1]
            exact ⟨hd, g2 hs (by rw [← g1]; exact hd)⟩
          · rw [hd] at g3
            cases g3
        have hg : ∀ x, Spec.GreetsPlainly alnum o g x ↔ x = connDataOf o hs v := by
          intro x
          constructor
          · rintro ⟨⟨hs', v', h1, h2, rfl⟩, _⟩
            have := (C73_greeting _ _).2 h1
            rw [hfull.1] at this
            cases this
            rw [hv] at h2
            cases h2
            rfl
          · rintro rfl
            refine ⟨⟨hs, v, (C73_greeting _ _).1 hfull.1, hv, rfl⟩, ?_⟩
            show hs.authPlugin.getD .native ≠ .sha2
            cases hp : hs.authPlugin with
            | none => intro h; cases h
            | some p =>
              intro h
              refine hfull.2 ?_
              rw [hp]
              exact congrArg some h
        constructor
        · rintro ⟨rfl, rfl, rfl⟩
          exact ⟨rfl, Or.inl ⟨(hg _).2 rfl, rfl⟩⟩
        · rintro ⟨rfl, ⟨h, rfl⟩ | ⟨h, _⟩⟩
          · exact ⟨rfl, rfl, (hg _).1 h⟩
          · exact absurd ((hg _).2 rfl) (h _)
      | err e => exact e.elim
      | panic =>
        refine broken (none fun hs' v h => ?_)
        rw [hd] at h
        cases h
        rw [hv]
        intro h
        cases h
    | err e =>
      refine broken (none fun hs' v h => ?_)
      rw [hd] at h
      cases h
    | panic =>
      refine broken (none fun hs' v h => ?_)
      rw [hd] at h
      cases h
  · constructor
    · rintro ⟨g, _, rfl, rfl, h⟩
      exact ⟨g, rfl, h⟩
    · rintro ⟨g, rfl, h⟩
      exact ⟨g, [], rfl, rfl, h⟩

theorem plain_two (cr : Crypto) (o : Options) (d : ConnData) (es : List Turn) (t : Tell Unit) (d' : ConnData)
    (h : d.authSwitched = false) (hp : d.authPlugin ≠ .sha2) : PlainCont cr 2 o d es t d' ↔
      ∃ w f d1, es = w ++ f ∧ Spec.Waits cr.toHashes o d w d1 ∧ d1.authPlugin ≠ .sha2 ∧ PlainClose o d1 f t d' := by
  constructor
  · rintro (hc | ⟨_, q, p, nonce, xs, hq, hp, hu, rfl, hc | ⟨h, _⟩⟩)
    · exact ⟨[], es, d, rfl, Or.inl ⟨rfl, rfl⟩, hp, hc⟩
    · exact ⟨[_, _], xs, _, rfl, Or.inr ⟨h, q, p, nonce, hq, hu, rfl, rfl⟩, hp, hc⟩
    · cases h
  · rintro ⟨w, f, d1, rfl, ⟨rfl, rfl⟩ | ⟨_, q, p, nonce, hq, hu, rfl, rfl⟩, hp, hc⟩
    · exact Or.inl hc
    · exact Or.inr ⟨h, q, p, nonce, f, hq, hp, hu, rfl, Or.inl hc⟩

theorem does_loginIn (b : Build) (h : b.sha2 = false) (sleep : Bool) (hs : b.time = true ∨ sleep = true) (cr : Crypto)
    (alnum : Char → Bool) : Does (loginIn b sleep cr alnum) fun o d es t d' =>
    (∃ g, es = [.got g] ∧ (∀ x, ¬ Spec.GreetsPlainly alnum o g x) ∧ t = .panic ∧ d' = d) ∨
    ∃ g d0 w f d1, Spec.GreetsPlainly alnum o g d0 ∧ Spec.Usable o (Spec.going o d0) ∧
      es = .got g :: .put (Spec.request cr.toHashes o d0) :: w ++ f ∧ Spec.Waits cr.toHashes o d0 w d1 ∧
      d1.authPlugin ≠ .sha2 ∧ PlainClose o d1 f t d' := by
  refine (Does.bind (does_greetingIn b h sleep hs alnum) fun _ => Does.bind (does_request cr) fun _ =>
    does_continueAuthIn b h cr 2).weaken fun o d es t d' => ?_
  constructor
  · rintro (⟨e, rfl, g, rfl, ⟨_, h⟩ | ⟨_, h, _⟩⟩ | ⟨rfl, g, rfl, ⟨_, h⟩ | ⟨h, _, rfl⟩⟩ |
      ⟨_, xs, ys, d0, rfl, ⟨g, rfl, ⟨hg, _⟩ | ⟨_, h, _⟩⟩, h2⟩)
    · cases h
    · cases h
    · cases h
    · exact Or.inl ⟨g, rfl, h, rfl, rfl⟩
    · rcases h2 with ⟨e, rfl, _, _, h, _⟩ | ⟨rfl, _, _, h, _⟩ | ⟨_, xs, zs, _, rfl, ⟨hu, rfl, _, rfl⟩, hc⟩
      · cases h
      · cases h
      · obtain ⟨w, f, d1, rfl, hw, hp, hc⟩ := (plain_two _ _ _ _ _ _ (Greets.fresh hg.1) hg.2).1 hc
        exact Or.inr ⟨g, _, w, f, d1, hg, hu, rfl, hw, hp, hc⟩
    · cases h
  · rintro (⟨g, rfl, h, rfl, rfl⟩ | ⟨g, d0, w, f, d1, hg, hu, rfl, hw, hp, hc⟩)
    · exact Or.inr (Or.inl ⟨rfl, g, rfl, Or.inr ⟨h, rfl, rfl⟩⟩)
    · refine Or.inr (Or.inr ⟨(), [.got g], .put (Spec.request cr.toHashes o d0) :: w ++ f, d0, rfl,
        ⟨g, rfl, Or.inl ⟨hg, rfl⟩⟩, Or.inr (Or.inr
        ⟨(), [.put (Spec.request cr.toHashes o d0)], w ++ f, d0, rfl, ⟨hu, rfl, rfl, rfl⟩,
          (plain_two _ _ _ _ _ _ (Greets.fresh hg.1) hg.2).2 ⟨w, f, d1, rfl, hw, hp, hc⟩⟩)⟩)

/-- **C93**, success: without the plugin a login succeeds exactly with those conversations in which the server greets
readably and asks for one other plugin at most, naming `caching_sha2_password` in neither, and then accepts; … -/
theorem C93_accepted (b : Build) (h : b.sha2 = false) (sleep : Bool) (hs : b.time = true ∨ sleep = true) (cr : Crypto)
    (alnum : Char → Bool) (c c' : Conn) :
    loginIn b sleep cr alnum c = (.ok (), c') ↔
      ∃ g d0 w d1 u c1, Talk c (.got g :: .put (Spec.request cr.toHashes c.options d0) :: w ++ [.got (0 :: u)]) c1 ∧
        Spec.Greets alnum c.options g d0 ∧ d0.authPlugin ≠ .sha2 ∧
        (Spec.going c.options d0 = .clear → c.options.allowCleartext = true) ∧
        Spec.Waits cr.toHashes c.options d0 w d1 ∧ d1.authPlugin ≠ .sha2 ∧ c' = { c1 with data := d1 } := by
  rw [show (Out.ok () : Out Error Unit) = Tell.out (.ok ()) from rfl, does_loginIn b h sleep hs cr alnum c (.ok ()) c']
  constructor
  · rintro ⟨es, d2, c1, ht, ⟨_, _, _, h, _⟩ | ⟨g, d0, w, f, d1, hg, hu, rfl, hw, hp, ⟨_, ⟨u, rfl⟩, rfl⟩ | ⟨_, _, h, _⟩⟩, rfl⟩
    · cases h
    · exact ⟨g, d0, w, _, u, c1, ht, hg.1, hg.2, hu.2, hw, hp, rfl⟩
    · cases h
  · rintro ⟨g, d0, w, d1, u, c1, ht, hg, hg2, hu, hw, hp, rfl⟩
    exact ⟨_, d1, c1, ht, Or.inr ⟨g, d0, w, _, d1, ⟨hg, hg2⟩, (usable_going _ _).2 hu, rfl, hw, hp,
      Or.inl ⟨rfl, ⟨u, rfl⟩, rfl⟩⟩, rfl⟩

/-- … it reports an error of the server exactly with those in which the server refuses instead; … -/
theorem C93_refused (b : Build) (h : b.sha2 = false) (sleep : Bool) (hs : b.time = true ∨ sleep = true) (cr : Crypto)
    (alnum : Char → Bool) (c c' : Conn) (code : UInt16) (state : Option Bytes) (msg : Str) :
    loginIn b sleep cr alnum c = (.err (.server (.error code state msg)), c') ↔
      ∃ g d0 w d1 p c1, Talk c (.got g :: .put (Spec.request cr.toHashes c.options d0) :: w ++ [.got p]) c1 ∧
        Spec.Greets alnum c.options g d0 ∧ d0.authPlugin ≠ .sha2 ∧
        (Spec.going c.options d0 = .clear → c.options.allowCleartext = true) ∧
        Spec.Waits cr.toHashes c.options d0 w d1 ∧ d1.authPlugin ≠ .sha2 ∧
        Spec.ErrForm d0.capabilities p code state msg ∧ c' = { c1 with data := d1 } := by
  have hcap : ∀ {d0 d1 w}, Spec.Waits cr.toHashes c.options d0 w d1 → d1.capabilities = d0.capabilities := by
    rintro d0 d1 w (⟨_, rfl⟩ | ⟨_, q, p, nonce, _, _, _, rfl⟩) <;> rfl
  rw [show (Out.err (.server (.error code state msg)) : Out Error Unit) = Tell.out (.server (.error code state msg)) from
    rfl, does_loginIn b h sleep hs cr alnum c _ c']
  constructor
  · rintro ⟨es, d2, c1, ht, ⟨_, _, _, h, _⟩ | ⟨g, d0, w, f, d1, hg, hu, rfl, hw, hp, ⟨h, _⟩ | ⟨_, p, h, hr, rfl, rfl⟩⟩, rfl⟩
    · cases h
    · cases h
    · cases h
      refine ⟨g, d0, w, _, p, c1, ht, hg.1, hg.2, hu.2, hw, hp, ?_, rfl⟩
      rw [← hcap hw]
      exact (errForm_iff _ _ _ _ _).1 hr
  · rintro ⟨g, d0, w, d1, p, c1, ht, hg, hg2, hu, hw, hp, hr, rfl⟩
    rw [← hcap hw] at hr
    exact ⟨_, d1, c1, ht, Or.inr ⟨g, d0, w, _, d1, ⟨hg, hg2⟩, (usable_going _ _).2 hu, rfl, hw, hp,
      Or.inr ⟨_, p, rfl, (errForm_iff _ _ _ _ _).2 hr, rfl, rfl⟩⟩, rfl⟩

/-- … and it panics exactly at a greeting that cannot be read or names `caching_sha2_password`. -/
theorem C93_panic (b : Build) (h : b.sha2 = false) (sleep : Bool) (hs : b.time = true ∨ sleep = true) (cr : Crypto)
    (alnum : Char → Bool) (c c' : Conn) :
    loginIn b sleep cr alnum c = (.panic, c') ↔
      ∃ g, Talk c [.got g] c' ∧ ∀ d, Spec.Greets alnum c.options g d → d.authPlugin = .sha2 := by
  rw [show (Out.panic : Out Error Unit) = Tell.out .panic from rfl, does_loginIn b h sleep hs cr alnum c .panic c']
  constructor
  · rintro ⟨es, d2, c1, ht, ⟨g, rfl, hn, _, rfl⟩ | ⟨g, d0, w, f, d1, hg, hu, rfl, hw, _, ⟨h, _⟩ | ⟨_, _, h, _⟩⟩, rfl⟩
    · refine ⟨g, ?_, fun d hd => ?_⟩
      · rw [← (Talk.keeps ht).1]
        exact ht
      · by_contra hne
        exact hn d ⟨hd, hne⟩
    · cases h
    · cases h
  · rintro ⟨g, ht, hn⟩
    refine ⟨_, c.data, c', ht, Or.inl ⟨g, rfl, fun d hd => hd.2 (hn d hd.1), rfl, rfl⟩, ?_⟩
    rw [← (Talk.keeps ht).1]

/-- leaving the plugin out admits nobody: whoever logs in without it logs in with it, in the same words and with the same
result. -/
theorem C93_fewer (b : Build) (h : b.sha2 = false) (sleep : Bool) (hs : b.time = true ∨ sleep = true) (cr : Crypto)
    (alnum : Char → Bool) (fp : FloatParse) (c c' : Conn) (hc : connectIn b sleep cr alnum fp c = (.ok (), c')) :
    connect cr alnum fp c = (.ok (), c') := by
  unfold connectIn at hc
  obtain ⟨_, c1, h1, h2⟩ := SM.bind_eq_ok.1 hc
  unfold connect
  obtain ⟨g, d0, w, d1, u, c2, ht, hg, _, hu, hw, _, rfl⟩ := (C93_accepted b h sleep hs cr alnum c c1).1 h1
  rw [SM.bind_of_ok ((C78_accepted cr alnum c _).2 ⟨g, d0, w, d1, _, d1, c2, ht, hg, hu, hw, .ok, rfl⟩)]
  exact h2

/-- a request to switch to `caching_sha2_password` is answered by nothing but an error that names the plugin. -/
theorem C93_switch (b : Build) (h : b.sha2 = false) (cr : Crypto) (n : Nat) (c c' : Conn) (q nonce : Bytes)
    (ht : Talk c [.got q] c') (hq : Spec.SwitchForm q .sha2 nonce) (hsw : c.data.authSwitched = false) :
    continueAuthIn b cr (n + 1) c = (.err (.protocol (.unknownAuthPlugin (Spec.pluginName .sha2))), c') := by
  obtain ⟨c1, h1, rfl⟩ := ht
  have hk := Talk.keeps (es := [.got q]) ⟨c', h1, rfl⟩
  rw [continueAuthIn_succ b h, SM.bind_of_ok ((C76_packet _ _ _).2 h1), SM.get_bind_apply, hk.1]
  obtain ⟨r, rfl⟩ := SwitchForm.fe hq
  unfold plain1
  dsimp only
  rw [if_neg (by decide), if_pos ⟨rfl, hsw⟩]
  have hd := (switchForm_iff r ⟨.sha2, nonce⟩).2 hq
  rcases (refrains_switch b h).runP (0xFE :: r) with ⟨_, g2⟩ | ⟨a, _, _, g3⟩
  · exact absurd rfl (g2 _ hd)
  · rw [g3]
    rfl

/-! ### the plugin named in the greeting, and the one the user wants

options.rs 32: "Ignore auth plugin specified in handshake and start authentication using this plugin." -/

/-- the same knowledge, but for the plugin the server named. -/
def renamed (p : AuthPlugin) (d : ConnData) : ConnData := { d with authPlugin := p }

theorem hands_renamed {cr : Crypto} {o : Options} {d d' : ConnData} {es : List Turn} (p : AuthPlugin)
    (h : Spec.Hands cr o d es d') : Spec.Hands cr o (renamed p d) es (renamed p d') := by
  cases h with
  | secure h => exact .secure h
  | known h1 h2 h3 h4 => exact .known h1 h2 h3 h4
  | asked h1 h2 h3 h4 h5 => exact .asked h1 h2 h3 h4 h5

theorem close_renamed {cr : Crypto} {o : Options} {d d' : ConnData} {es : List Turn} {t : Tell Unit} (p f : AuthPlugin)
    (hf : o.authPlugin = some f) (h : CloseRel cr o d es t d') : CloseRel cr o (renamed p d) es t (renamed p d') := by
  have hg : ∀ d, Spec.going o d = .sha2 → Spec.going o (renamed p d) = .sha2 := by
    intro d h
    unfold Spec.going at h ⊢
    rw [hf] at h ⊢
    exact h
  rcases h with ⟨rfl, h⟩ | ⟨e, q, rfl, hr, h⟩ | ⟨rfl, u, w, h1, rfl, h⟩
  · refine Or.inl ⟨rfl, ?_⟩
    cases h with
    | ok => exact .ok
    | fast h => exact .fast (hg _ h)
    | full h1 h2 => exact .full (hg _ h1) (hands_renamed p h2)
  · refine Or.inr (Or.inl ⟨e, q, rfl, hr, ?_⟩)
    cases h with
    | at_once => exact .at_once
    | key h1 h2 h3 => exact .key (hg _ h1) h2 h3
    | full h1 h2 => exact .full (hg _ h1) (hands_renamed p h2)
  · refine Or.inr (Or.inr ⟨rfl, u, w, hg _ h1, rfl, ?_⟩)
    cases h with
    | known h1 h2 h3 => exact .known h1 h2 h3
    | text h1 h2 h3 => exact .text h1 h2 h3
    | asked h1 h2 h3 h4 => exact .asked h1 h2 h3 h4

theorem cont_renamed {cr : Crypto} {n : Nat} {o : Options} {d d' : ConnData} {es : List Turn} {t : Tell Unit}
    (p f : AuthPlugin) (hf : o.authPlugin = some f) (h : ContRel cr (n + 1) o d es t d') :
    ∃ d'', ContRel cr (n + 1) o (renamed p d) es t d'' := by
  rcases h with h | ⟨hs, q, pl, nonce, xs, h1, h2, h3, h4⟩
  · exact ⟨_, Or.inl (close_renamed p f hf h)⟩
  · exact ⟨d', Or.inr ⟨hs, q, pl, nonce, xs, h1, h2, h3, h4⟩⟩

/-- what follows the greeting. -/
def afterGreeting (cr : Crypto) : M Unit := do
  doHandshakeResponse cr
  continueAuth cr 2

theorem does_after (cr : Crypto) : Does (afterGreeting cr) fun o d es t d' =>
    Spec.Usable o (Spec.going o d) ∧ ∃ xs, es = .put (Spec.request cr.toHashes o d) :: xs ∧ ContRel cr 2 o d xs t d' :=
  (Does.bind (S := fun _ => ContRel cr 2) (does_request cr) fun _ => does_continueAuth cr 2).weaken fun o d es t d' => by
    constructor
    · rintro (⟨e, rfl, _, _, h, _⟩ | ⟨rfl, _, _, h, _⟩ | ⟨_, xs, zs, _, rfl, ⟨hu, rfl, _, rfl⟩, hc⟩)
      · cases h
      · cases h
      · exact ⟨hu, zs, rfl, hc⟩
    · rintro ⟨hu, xs, rfl, hc⟩
      exact Or.inr (Or.inr ⟨(), [_], xs, d, rfl, ⟨hu, rfl, rfl, rfl⟩, hc⟩)

/-- If the user wants a plugin, then of the plugins the build knows it does not matter which one the greeting names: the
login is accepted, refused or panics at the same packets, and the same bytes are sent.

Missing: names the build does not know (`C93_ignored_violated`). -/
theorem C93_ignored_partial (cr : Crypto) (c c' : Conn) (p f : AuthPlugin) (t : Tell Unit)
    (hf : c.options.authPlugin = some f) (h : afterGreeting cr c = (t.out, c')) :
    ∃ d, afterGreeting cr { c with data := renamed p c.data } = (t.out, { c' with data := d }) := by
  obtain ⟨es, d', c1, ht, ⟨hu, xs, rfl, hc⟩, rfl⟩ := (does_after cr c t c').1 h
  obtain ⟨d'', hc'⟩ := cont_renamed p f hf hc
  have hg : Spec.going c.options (renamed p c.data) = Spec.going c.options c.data := by
    unfold Spec.going
    rw [hf]
    rfl
  refine ⟨d'', (does_after cr _ t _).2 ⟨.put (Spec.request cr.toHashes c.options (renamed p c.data)) :: xs, d'',
    { c1 with data := renamed p c.data }, ?_, ⟨?_, xs, rfl, hc'⟩, rfl⟩⟩
  · rw [Talk.setData]
    refine ⟨c1, ?_, rfl⟩
    rw [show Spec.request cr.toHashes c.options (renamed p c.data) = Spec.request cr.toHashes c.options c.data by
      unfold Spec.request
      rw [hg]
      rfl]
    exact ht
  · show Spec.Usable c.options (Spec.going c.options (renamed p c.data))
    rw [hg]
    exact hu

/-- With the default options, whatever user, password and database are filled in: on a stream that is not secure the
password is never sent in clear (only as answers that C28 allows), and the limit of the server is asked for. -/
theorem C93_defaults (b : Build) (cr : Crypto) (alnum : Char → Bool) (c : Conn) (user password : Str) (db : Option Str)
    (h : c.options = { Options.defaultIn b false with user := user, password := password, dbName := db }) :
    (∃ (ps : List (UInt8 × Bytes)) (t : Bytes),
      (∀ p ∈ ps, ∃ plugin, Spec.Answer cr c.options plugin p.2) ∧
      (login cr alnum c).2.tx = c.tx ++ t ∧ t <+: Spec.wire ps) ∧
    ∀ fp, readSettings fp c = askLimit fp c := by
  refine ⟨C28_messages cr alnum c (by rw [h]; rfl) (by rw [h]; rfl), fun fp => ?_⟩
  unfold readSettings
  rw [SM.get_bind_apply, h]
  rfl

namespace C93ex

/-- a greeting that names this plugin. -/
def greets (plugin : String) : Bytes :=
  [10] ++ ascii "8.0.1" ++ [0] ++ [1, 0, 0, 0] ++ [1, 2, 3, 4, 5, 6, 7, 8] ++ [0] ++
  [0x00, 0x82] ++ [45] ++ [2, 0] ++ [0x08, 0x00] ++ [21] ++ List.replicate 10 0 ++
  [9, 10, 11, 12, 13, 14, 15, 16, 17, 18, 19, 20, 0] ++ ascii plugin ++ [0]

def ask (plugin : String) : Bytes := [0xFE] ++ ascii plugin ++ [0, 1, 2, 3, 0]

def run (b : Build) (sleep : Bool) (o : Options) (plugin : String) (ps : List (UInt8 × Bytes)) : Out Error Unit :=
  (loginIn b sleep C28.crypto C28.asciiAlnum (Conn.initial o
    (rxOf (Spec.frames 0 (greets plugin) ++ ps.flatMap fun p => Spec.frames p.1 p.2)) [])).1

def plain : Build := { sha2 := false, time := true }

def wants (p : AuthPlugin) : Options := { C28.opts with authPlugin := some p }

end C93ex

open C93ex in
/-- "Ignore auth plugin specified in handshake": with a server whose own plugin the build does not know, the client panics
although the user wants another one and the server would accept it, in the default build and in the one without
`caching-sha2-password`, where this is every server that is set up as MySQL 8 is. -/
theorem C93_ignored_violated :
    run .full true (wants .native) "mysql_clear_password" [(2, [0])] = .ok () ∧
    run .full true (wants .native) "sha256_password" [(2, [0])] = .panic ∧
    run plain true (wants .native) "mysql_clear_password" [(2, [0])] = .ok () ∧
    run plain true (wants .native) "caching_sha2_password" [(2, [0])] = .panic := by
  refine ⟨?_, ?_, ?_, ?_⟩ <;> decide +kernel

open C93ex in
/-- without the plugin: accepted at once and after a switch, a switch to the missing plugin is an error, "more data" is not
understood; with it both work; the defaults differ in the plugin they want; without a way to wait there is no login. -/
theorem C93_example :
    run plain true C28.opts "mysql_native_password" [(2, [0])] = .ok () ∧
    run plain true { C28.opts with allowCleartext := true } "mysql_native_password"
      [(2, ask "mysql_clear_password"), (4, [0])] = .ok () ∧
    run plain true C28.opts "mysql_native_password" [(2, ask "caching_sha2_password"), (4, [0])] =
      .err (.protocol (.unknownAuthPlugin (ascii "caching_sha2_password"))) ∧
    run .full true C28.opts "mysql_native_password" [(2, ask "caching_sha2_password"), (4, [0])] = .ok () ∧
    run plain true C28.opts "mysql_native_password" [(2, [1, 3]), (3, [0])] =
      .err (.protocol (.unexpectedPacket [1, 3])) ∧
    run .full true C28.opts "caching_sha2_password" [(2, [1, 3]), (3, [0])] = .ok () ∧
    run plain true (Options.defaultIn plain false) "mysql_native_password" [(2, [0])] = .ok () ∧
    run .full true (Options.defaultIn .full false) "mysql_native_password"
      [(2, ask "mysql_native_password"), (4, [0])] =
      .err (.runtime (.authPluginMismatch .sha2 .native)) ∧
    run { sha2 := true, time := false } false C28.opts "mysql_native_password" [(2, [0])] = .panic ∧
    run { sha2 := true, time := false } true C28.opts "mysql_native_password" [(2, [0])] = .ok () := by
  refine ⟨?_, ?_, ?_, ?_, ?_, ?_, ?_, ?_, ?_, ?_⟩ <;> decide +kernel

end Verif

import Verif.Proofs.Talk
import Verif.Props.C63_LoginServer

/-!
# C78: which conversations log in

Whatever the server sends: with which conversations a login succeeds, with which it is refused in the words of the
server, and with which the client panics.
-/

namespace Verif

open Spec (Turn Talk Put)

theorem errPacket_calm (caps : UInt32) (p : Bytes) : runP (ErrPacket.deserialize caps) p ≠ .panic :=
  (Lens.errPacket caps p (Nat.zero_le _)).1

theorem switch_calm (p : Bytes) : runP AuthSwitch.deserialize p ≠ .panic :=
  (Lens.authSwitch p (Nat.zero_le _)).1

theorem mapErr_local {ε α : Type} (x : Out ε α) (f : ε → ProtocolError) (e : ErrPacket) :
    x.mapErr (fun a => Error.protocol (f a)) ≠ .err (.server e) := by
  cases x <;> intro h <;> cases h

theorem mapErr_ok_iff {ε ε' α : Type} (x : Out ε α) (f : ε → ε') (a : α) : x.mapErr f = .ok a ↔ x = .ok a := by
  cases x <;> simp [Out.mapErr]

theorem mapErr_panic_iff {ε ε' α : Type} (x : Out ε α) (f : ε → ε') : x.mapErr f = .panic ↔ x = .panic := by
  cases x <;> simp [Out.mapErr]

/-- a packet the server refuses with. -/
def Refusal (d : ConnData) (p : Bytes) (e : ErrPacket) : Prop :=
  runP (ErrPacket.deserialize d.capabilities) p = .ok e

theorem Refusal.ff {d : ConnData} {p : Bytes} {e : ErrPacket} (h : Refusal d p e) : ∃ r, p = 0xFF :: r :=
  errPacket_ff h

theorem does_liftErr {α : Type} (caps : UInt32) (p : Bytes) :
    Does (liftP (runP (ErrPacket.deserialize caps) p) >>= fun e => (SM.fail (.server e) : M α))
      fun _ d es t d' => ∃ e, runP (ErrPacket.deserialize caps) p = .ok e ∧ es = [] ∧ t = .server e ∧ d' = d :=
  (Does.ofOut_bind (mapErr_local _ _) fun e => Does.refuse e).weaken fun o d es t d' => by
    rw [mapErr_panic_iff]
    simp only [mapErr_ok_iff]
    constructor
    · rintro (⟨h, _⟩ | h)
      · exact absurd h (errPacket_calm _ _)
      · exact h
    · exact Or.inr

theorem does_authFailure {α : Type} (p : Bytes) :
    Does (authFailure p : M α) fun _ d es t d' => ∃ e, Refusal d p e ∧ es = [] ∧ t = .server e ∧ d' = d := by
  unfold authFailure
  refine (Does.get_bind (fun _ d => match runP (ErrPacket.deserialize d.capabilities) p with
    | .ok e => SM.fail (.server e)
    | .err _ => SM.fail (.protocol (.unexpectedPacket p))
    | .panic => SM.crash) (fun c => rfl)
    (S := fun _ d0 _ d es t d' => ∃ e, Refusal d0 p e ∧ es = [] ∧ t = .server e ∧ d' = d) ?_)
  intro o d
  unfold Refusal
  cases h : runP (ErrPacket.deserialize d.capabilities) p with
  | ok e =>
    refine (Does.refuse e).weaken fun o d es t d' => ?_
    constructor
    · rintro ⟨rfl, rfl, rfl⟩
      exact ⟨e, rfl, rfl, rfl, rfl⟩
    · rintro ⟨_, h, rfl, rfl, rfl⟩
      cases h
      exact ⟨rfl, rfl, rfl⟩
  | err e =>
    refine (Does.fail _).weaken fun o d es t d' => ?_
    constructor
    · exact False.elim
    · rintro ⟨_, h, _⟩
      cases h
  | panic => exact absurd h (errPacket_calm _ _)

theorem does_readVerdict : Does readVerdict fun _ d es t d' =>
    ∃ p, es = [.got p] ∧ d' = d ∧ ((∃ r, p = 0 :: r ∧ t = .ok ()) ∨ ∃ e, Refusal d p e ∧ t = .server e) := by
  unfold readVerdict
  refine (Does.read_bind (S := fun p o d ys t d' => ys = [] ∧ d' = d ∧
    ((∃ r, p = 0 :: r ∧ t = .ok ()) ∨ ∃ e, Refusal d p e ∧ t = .server e)) fun p => ?_).weaken fun o d es t d' => ?_
  · refine (Does.get_bind (fun _ d => match p with
      | [] => SM.fail (.protocol (.unexpectedPacket p))
      | b :: _ => if b = 0x00 then pure () else if b = 0xFF then do
          let e ← liftP (runP (ErrPacket.deserialize d.capabilities) p)
          SM.fail (.server e)
        else SM.fail (.protocol (.unexpectedPacket p))) (fun c => rfl)
      (S := fun _ d0 _ d ys t d' => ys = [] ∧ d' = d ∧
        ((∃ r, p = 0 :: r ∧ t = .ok ()) ∨ ∃ e, Refusal d0 p e ∧ t = .server e)) ?_)
    intro o d
    cases p with
    | nil =>
      refine (Does.fail _).weaken fun o1 d1 es t d' => ?_
      constructor
      · exact False.elim
      · rintro ⟨_, _, ⟨_, h, _⟩ | ⟨_, h, _⟩⟩
        · cases h
        · obtain ⟨_, h⟩ := h.ff
          cases h
    | cons b r =>
      dsimp only
      by_cases h0 : b = 0
      · subst h0
        rw [if_pos rfl]
        refine (Does.pure _).weaken fun o1 d1 es t d' => ?_
        constructor
        · rintro ⟨rfl, rfl, rfl⟩
          exact ⟨rfl, rfl, Or.inl ⟨r, rfl, rfl⟩⟩
        · rintro ⟨rfl, rfl, ⟨_, h, rfl⟩ | ⟨_, h, _⟩⟩
          · exact ⟨rfl, rfl, rfl⟩
          · obtain ⟨_, h⟩ := h.ff
            cases h
      · rw [if_neg h0]
        by_cases h1 : b = 0xFF
        · rw [if_pos h1]
          refine (does_liftErr _ _).weaken fun o1 d1 es t d' => ?_
          constructor
          · rintro ⟨e, h, rfl, rfl, rfl⟩
            exact ⟨rfl, rfl, Or.inr ⟨e, h, rfl⟩⟩
          · rintro ⟨rfl, rfl, ⟨_, h, rfl⟩ | ⟨e, h, rfl⟩⟩
            · cases h
              exact absurd rfl h0
            · exact ⟨e, h, rfl, rfl, rfl⟩
        · rw [if_neg h1]
          refine (Does.fail _).weaken fun o1 d1 es t d' => ?_
          constructor
          · exact False.elim
          · rintro ⟨_, _, ⟨_, h, _⟩ | ⟨_, h, _⟩⟩
            · cases h
              exact absurd rfl h0
            · obtain ⟨_, h⟩ := h.ff
              cases h
              exact absurd rfl h1
  · constructor
    · rintro ⟨p, _, rfl, rfl, rfl, h⟩
      exact ⟨p, rfl, rfl, h⟩
    · rintro ⟨p, rfl, rfl, h⟩
      exact ⟨p, [], rfl, rfl, rfl, h⟩

/-- asking for the key. -/
def askKey : M PublicKey := do
  writePacket [0x02]
  let packet ← readPacket
  let c ← SM.get
  match packet with
  | [] => SM.fail (.protocol (.unexpectedPacket packet))
  | b :: r =>
    if b = 0x01 then do
      let k ← SM.ofOut ((tryFromPem r).mapErr fun e => .protocol (.serialize (.encryption e)))
      SM.modify fun c => { c with data.serverKey := some k }
      pure k
    else if b = 0xFF then do
      let e ← liftP (runP (ErrPacket.deserialize c.data.capabilities) packet)
      SM.fail (.server e)
    else SM.fail (.protocol (.unexpectedPacket packet))

theorem does_askKey : Does askKey fun _ d es t d' => ∃ p, es = [.put [2], .got p] ∧
    ((∃ pem k, p = 1 :: pem ∧ tryFromPem pem = .ok k ∧ t = .ok k ∧ d' = { d with serverKey := some k }) ∨
     (∃ pem, p = 1 :: pem ∧ tryFromPem pem = .panic ∧ t = .panic ∧ d' = d) ∨
     ∃ e, Refusal d p e ∧ t = .server e ∧ d' = d) := by
  unfold askKey
  refine (Does.write_bind (Does.read_bind (S := fun p o d ys t d' => ys = [] ∧
    ((∃ pem k, p = 1 :: pem ∧ tryFromPem pem = .ok k ∧ t = .ok k ∧ d' = { d with serverKey := some k }) ∨
     (∃ pem, p = 1 :: pem ∧ tryFromPem pem = .panic ∧ t = .panic ∧ d' = d) ∨
     ∃ e, Refusal d p e ∧ t = .server e ∧ d' = d)) fun p => ?_)).weaken fun o d es t d' => ?_
  · refine (Does.get_bind (fun _ d => match p with
      | [] => SM.fail (.protocol (.unexpectedPacket p))
      | b :: r => if b = 0x01 then do
          let k ← SM.ofOut ((tryFromPem r).mapErr fun e => .protocol (.serialize (.encryption e)))
          SM.modify fun c => { c with data.serverKey := some k }
          pure k
        else if b = 0xFF then do
          let e ← liftP (runP (ErrPacket.deserialize d.capabilities) p)
          SM.fail (.server e)
        else SM.fail (.protocol (.unexpectedPacket p))) (fun c => rfl)
      (S := fun _ d0 _ d ys t d' => ys = [] ∧
        ((∃ pem k, p = 1 :: pem ∧ tryFromPem pem = .ok k ∧ t = .ok k ∧ d' = { d with serverKey := some k }) ∨
         (∃ pem, p = 1 :: pem ∧ tryFromPem pem = .panic ∧ t = .panic ∧ d' = d) ∨
         ∃ e, Refusal d0 p e ∧ t = .server e ∧ d' = d)) ?_)
    intro o d
    cases p with
    | nil =>
      refine (Does.fail _).weaken fun o1 d1 es t d' => ?_
      constructor
      · exact False.elim
      · rintro ⟨_, ⟨_, _, h, _⟩ | ⟨_, h, _⟩ | ⟨_, h, _⟩⟩
        · cases h
        · cases h
        · obtain ⟨_, h⟩ := h.ff
          cases h
    | cons b r =>
      dsimp only
      by_cases h0 : b = 1
      · subst h0
        rw [if_pos rfl]
        refine (Does.ofOut_bind (mapErr_local _ _) fun k => Does.modify_bind (fun _ d => { d with serverKey := some k })
          (fun c => rfl) (Does.pure k)).weaken fun o1 d1 es t d' => ?_
        rw [mapErr_panic_iff]
        simp only [mapErr_ok_iff]
        constructor
        · rintro (⟨h, rfl, rfl, rfl⟩ | ⟨k, h, rfl, rfl, rfl⟩)
          · exact ⟨rfl, Or.inr (Or.inl ⟨r, rfl, h, rfl, rfl⟩)⟩
          · exact ⟨rfl, Or.inl ⟨r, k, rfl, h, rfl, rfl⟩⟩
        · rintro ⟨rfl, ⟨_, k, h0, h, rfl, rfl⟩ | ⟨_, h0, h, rfl, rfl⟩ | ⟨_, h, _⟩⟩
          · cases h0
            exact Or.inr ⟨k, h, rfl, rfl, rfl⟩
          · cases h0
            exact Or.inl ⟨h, rfl, rfl, rfl⟩
          · obtain ⟨_, h⟩ := h.ff
            cases h
      · rw [if_neg h0]
        by_cases h1 : b = 0xFF
        · rw [if_pos h1]
          refine (does_liftErr _ _).weaken fun o1 d1 es t d' => ?_
          constructor
          · rintro ⟨e, h, rfl, rfl, rfl⟩
            exact ⟨rfl, Or.inr (Or.inr ⟨e, h, rfl, rfl⟩)⟩
          · rintro ⟨rfl, ⟨_, k, h, _⟩ | ⟨_, h, _⟩ | ⟨e, h, rfl, rfl⟩⟩
            · cases h
              exact absurd rfl h0
            · cases h
              exact absurd rfl h0
            · exact ⟨e, h, rfl, rfl, rfl⟩
        · rw [if_neg h1]
          refine (Does.fail _).weaken fun o1 d1 es t d' => ?_
          constructor
          · exact False.elim
          · rintro ⟨_, ⟨_, _, h, _⟩ | ⟨_, h, _⟩ | ⟨_, h, _⟩⟩
            · cases h
              exact absurd rfl h0
            · cases h
              exact absurd rfl h0
            · obtain ⟨_, h⟩ := h.ff
              cases h
              exact absurd rfl h1
  · constructor
    · rintro ⟨_, rfl, p, _, rfl, rfl, h⟩
      exact ⟨p, rfl, h⟩
    · rintro ⟨p, rfl, h⟩
      exact ⟨_, rfl, p, [], rfl, rfl, h⟩

theorem does_fetchKey : Does fetchKey fun _ d es t d' =>
    (∃ k, d.serverKey = some k ∧ es = [] ∧ t = .ok k ∧ d' = d) ∨
    (d.serverKey = none ∧ ∃ p, es = [.put [2], .got p] ∧
      ((∃ pem k, p = 1 :: pem ∧ tryFromPem pem = .ok k ∧ t = .ok k ∧ d' = { d with serverKey := some k }) ∨
       (∃ pem, p = 1 :: pem ∧ tryFromPem pem = .panic ∧ t = .panic ∧ d' = d) ∨
       ∃ e, Refusal d p e ∧ t = .server e ∧ d' = d)) := by
  refine (Does.get_bind (fun _ d => match d.serverKey with
    | some k => pure k
    | none => askKey) (fun c => rfl)
    (S := fun _ d0 _ d es t d' =>
      (∃ k, d0.serverKey = some k ∧ es = [] ∧ t = .ok k ∧ d' = d) ∨
      (d0.serverKey = none ∧ ∃ p, es = [.put [2], .got p] ∧
        ((∃ pem k, p = 1 :: pem ∧ tryFromPem pem = .ok k ∧ t = .ok k ∧ d' = { d with serverKey := some k }) ∨
         (∃ pem, p = 1 :: pem ∧ tryFromPem pem = .panic ∧ t = .panic ∧ d' = d) ∨
         ∃ e, Refusal d p e ∧ t = .server e ∧ d' = d))) ?_)
  intro o d
  cases h : d.serverKey with
  | some k =>
    refine (Does.pure k).weaken fun o1 d1 es t d' => ?_
    constructor
    · rintro ⟨rfl, rfl, rfl⟩
      exact Or.inl ⟨k, rfl, rfl, rfl, rfl⟩
    · rintro (⟨_, h, rfl, rfl, rfl⟩ | ⟨h, _⟩)
      · cases h
        exact ⟨rfl, rfl, rfl⟩
      · cases h
  | none =>
    refine does_askKey.weaken fun o1 d1 es t d' => ?_
    constructor
    · intro h
      exact Or.inr ⟨rfl, h⟩
    · rintro (⟨_, h, _⟩ | ⟨_, h⟩)
      · cases h
      · exact h

/-- encrypting the password and sending it. -/
def encryptAndSend (cr : Crypto) (pass : Bytes) (key : PublicKey) : M Unit := do
  let c ← SM.get
  let x ← SM.ofOut (xorNonce pass c.data.nonce)
  let enc ← SM.ofOut ((cr.rsa key x).mapErr fun e => .protocol (.serialize (.encryption e)))
  writePacket enc

theorem does_encryptAndSend (cr : Crypto) (pass : Bytes) (key : PublicKey) :
    Does (encryptAndSend cr pass key) fun _ d es t d' => d' = d ∧
      ((t = .panic ∧ es = [] ∧ (d.nonce = [] ∨ cr.rsa key (Spec.xorRepeated pass d.nonce) = .panic)) ∨
       (d.nonce ≠ [] ∧ ∃ enc, cr.rsa key (Spec.xorRepeated pass d.nonce) = .ok enc ∧ t = .ok () ∧ es = [.put enc])) := by
  refine (Does.get_bind (fun _ d => do
      let x ← SM.ofOut (xorNonce pass d.nonce)
      let enc ← SM.ofOut ((cr.rsa key x).mapErr fun e => .protocol (.serialize (.encryption e)))
      writePacket enc) (fun c => rfl) (S := fun _ d0 _ d es t d' => d' = d ∧
      ((t = .panic ∧ es = [] ∧ (d0.nonce = [] ∨ cr.rsa key (Spec.xorRepeated pass d0.nonce) = .panic)) ∨
       (d0.nonce ≠ [] ∧ ∃ enc, cr.rsa key (Spec.xorRepeated pass d0.nonce) = .ok enc ∧ t = .ok () ∧
         es = [.put enc]))) ?_)
  intro o d
  refine (Does.ofOut_bind (x := xorNonce pass d.nonce) ?_ fun x => Does.ofOut_bind (mapErr_local _ _) fun enc =>
    Does.write enc).weaken fun o1 d1 es t d' => ?_
  · unfold xorNonce
    split <;> (intro e h; cases h)
  · by_cases hn : d.nonce = []
    · have hx : xorNonce pass d.nonce = .panic := by unfold xorNonce; rw [if_pos hn]
      rw [hx]
      constructor
      · rintro (⟨_, rfl, rfl, rfl⟩ | ⟨_, h, _⟩)
        · exact ⟨rfl, Or.inl ⟨rfl, rfl, Or.inl hn⟩⟩
        · cases h
      · rintro ⟨rfl, ⟨rfl, rfl, _⟩ | ⟨h, _⟩⟩
        · exact Or.inl ⟨rfl, rfl, rfl, rfl⟩
        · exact absurd hn h
    · rw [xorNonce_eq _ _ hn]
      simp only [mapErr_panic_iff, mapErr_ok_iff]
      constructor
      · rintro (⟨h, _⟩ | ⟨x, h, h2⟩)
        · cases h
        · cases h
          rcases h2 with ⟨h, rfl, rfl, rfl⟩ | ⟨enc, h, rfl, rfl, rfl⟩
          · exact ⟨rfl, Or.inl ⟨rfl, rfl, Or.inr h⟩⟩
          · exact ⟨rfl, Or.inr ⟨hn, enc, h, rfl, rfl⟩⟩
      · rintro ⟨rfl, ⟨rfl, rfl, h⟩ | ⟨_, enc, h, rfl, rfl⟩⟩
        · exact Or.inr ⟨_, rfl, Or.inl ⟨h.resolve_left hn, rfl, rfl, rfl⟩⟩
        · exact Or.inr ⟨_, rfl, Or.inr ⟨enc, h, rfl, rfl, rfl⟩⟩

/-- what sending the password comes to. -/
def SendRel (cr : Crypto) : Rel Unit := fun o d es t d' =>
  (t = .ok () ∧ Spec.Hands cr o d es d') ∨
  (∃ e p, t = .server e ∧ o.secure = false ∧ d.serverKey = none ∧ es = [.put [2], .got p] ∧ Refusal d p e ∧ d' = d) ∨
  (t = .panic ∧ Spec.Breaks cr o d es d')

theorem does_sendPassword (cr : Crypto) : Does (sendPassword cr) (SendRel cr) := by
  refine (Does.get_bind (fun o _ => if o.secure then writePacket (Spec.secret o)
    else fetchKey >>= fun key => encryptAndSend cr (Spec.secret o) key) (fun c => rfl)
    (S := fun o0 _ _ d es t d' => SendRel cr o0 d es t d') ?_)
  intro o d
  by_cases hs : o.secure = true
  · rw [if_pos hs]
    refine (Does.write _).weaken fun o1 d1 es t d' => ?_
    constructor
    · rintro ⟨rfl, rfl, rfl⟩
      exact Or.inl ⟨rfl, .secure hs⟩
    · rintro (⟨rfl, h⟩ | ⟨_, _, _, h, _⟩ | ⟨_, h⟩)
      · cases h with
        | secure _ => exact ⟨rfl, rfl, rfl⟩
        | known h => rw [hs] at h; cases h
        | asked h => rw [hs] at h; cases h
      · rw [hs] at h; cases h
      · cases h with
        | known h => rw [hs] at h; cases h
        | text h => rw [hs] at h; cases h
        | asked h => rw [hs] at h; cases h
  · rw [if_neg hs]
    have hs' : o.secure = false := by simpa using hs
    refine (Does.bind does_fetchKey fun k => does_encryptAndSend cr _ k).weaken fun o1 d1 es t d' => ?_
    constructor
    · rintro (⟨e, rfl, ⟨_, _, _, h, _⟩ | ⟨hk, p, rfl, ⟨_, _, _, _, h, _⟩ | ⟨_, _, _, h, _⟩ | ⟨_, h, h1, rfl⟩⟩⟩ |
        ⟨rfl, ⟨_, _, _, h, _⟩ | ⟨hk, p, rfl, ⟨_, _, _, _, h, _⟩ | ⟨_, rfl, h, _, rfl⟩ | ⟨_, _, h, _⟩⟩⟩ |
        ⟨k, xs, ys, d2, rfl, h1, rfl, h2⟩)
      · cases h
      · cases h
      · cases h
      · cases h1
        exact Or.inr (Or.inl ⟨_, p, rfl, hs', hk, rfl, h, rfl⟩)
      · cases h
      · cases h
      · exact Or.inr (Or.inr ⟨rfl, .text hs' hk h⟩)
      · cases h
      · rcases h1 with ⟨_, hk, rfl, h, rfl⟩ | ⟨hk, p, rfl, ⟨_, _, rfl, hp, h, rfl⟩ | ⟨_, _, _, h, _⟩ | ⟨_, _, h, _⟩⟩
        · cases h
          rcases h2 with ⟨rfl, rfl, h⟩ | ⟨hn, enc, h, rfl, rfl⟩
          · exact Or.inr (Or.inr ⟨rfl, .known hs' hk h⟩)
          · exact Or.inl ⟨rfl, .known hs' hk hn h⟩
        · cases h
          rcases h2 with ⟨rfl, rfl, h⟩ | ⟨hn, enc, h, rfl, rfl⟩
          · exact Or.inr (Or.inr ⟨rfl, .asked hs' hk hp h⟩)
          · exact Or.inl ⟨rfl, .asked hs' hk hp hn h⟩
        · cases h
        · cases h
    · rintro (⟨rfl, h⟩ | ⟨e, p, rfl, _, hk, rfl, h, rfl⟩ | ⟨rfl, h⟩)
      · cases h with
        | secure h => exact absurd h hs
        | @known k enc _ hk hn h =>
          exact Or.inr (Or.inr ⟨k, [], _, d1, rfl, Or.inl ⟨k, hk, rfl, rfl, rfl⟩, rfl, Or.inr ⟨hn, enc, h, rfl, rfl⟩⟩)
        | @asked pem k enc _ hk hp hn h =>
          exact Or.inr (Or.inr ⟨k, [.put [2], .got (1 :: pem)], [.put enc], _, rfl,
            Or.inr ⟨hk, _, rfl, Or.inl ⟨pem, k, rfl, hp, rfl, rfl⟩⟩, rfl, Or.inr ⟨hn, enc, h, rfl, rfl⟩⟩)
      · exact Or.inl ⟨e, rfl, Or.inr ⟨hk, p, rfl, Or.inr (Or.inr ⟨e, h, rfl, rfl⟩)⟩⟩
      · cases h with
        | @known k _ hk h =>
          exact Or.inr (Or.inr ⟨k, [], _, d1, rfl, Or.inl ⟨k, hk, rfl, rfl, rfl⟩, rfl, Or.inl ⟨rfl, rfl, h⟩⟩)
        | @text pem _ hk hp =>
          exact Or.inr (Or.inl ⟨rfl, Or.inr ⟨hk, _, rfl, Or.inr (Or.inl ⟨pem, rfl, hp, rfl, rfl⟩)⟩⟩)
        | @asked pem k _ hk hp h =>
          exact Or.inr (Or.inr ⟨k, [.put [2], .got (1 :: pem)], [], _, rfl,
            Or.inr ⟨hk, _, rfl, Or.inl ⟨pem, k, rfl, hp, rfl, rfl⟩⟩, rfl, Or.inl ⟨rfl, rfl, h⟩⟩)

theorem Hands.caps {cr : Crypto} {o : Options} {d d' : ConnData} {es : List Turn} (h : Spec.Hands cr o d es d') :
    d'.capabilities = d.capabilities := by
  cases h <;> rfl

/-- what the way through the password comes to. -/
def FullRel (cr : Crypto) : Rel Unit := fun o d es t d' =>
  (t = .ok () ∧ ∃ f u, es = f ++ [.got (0 :: u)] ∧ Spec.Hands cr o d f d') ∨
  (∃ e p, t = .server e ∧ Refusal d p e ∧
    ((∃ f, es = f ++ [.got p] ∧ Spec.Hands cr o d f d') ∨
     (o.secure = false ∧ d.serverKey = none ∧ es = [.put [2], .got p] ∧ d' = d))) ∨
  (t = .panic ∧ Spec.Breaks cr o d es d')

theorem does_fullAuth (cr : Crypto) : Does (fullAuth cr) (FullRel cr) := by
  refine (Does.bind (does_sendPassword cr) fun _ => does_readVerdict).weaken fun o d es t d' => ?_
  constructor
  · rintro (⟨e, rfl, ⟨h, _⟩ | ⟨_, p, h, hs, hk, rfl, hr, rfl⟩ | ⟨h, _⟩⟩ |
      ⟨rfl, ⟨h, _⟩ | ⟨_, _, h, _⟩ | ⟨_, h⟩⟩ |
      ⟨_, f, ys, d1, rfl, ⟨_, hf⟩ | ⟨_, _, h, _⟩ | ⟨h, _⟩, p, rfl, rfl, h2⟩)
    · cases h
    · cases h
      exact Or.inr (Or.inl ⟨_, p, rfl, hr, Or.inr ⟨hs, hk, rfl, rfl⟩⟩)
    · cases h
    · cases h
    · cases h
    · exact Or.inr (Or.inr ⟨rfl, h⟩)
    · rcases h2 with ⟨u, rfl, rfl⟩ | ⟨e, hr, rfl⟩
      · exact Or.inl ⟨rfl, f, u, rfl, hf⟩
      · refine Or.inr (Or.inl ⟨e, p, rfl, ?_, Or.inl ⟨f, rfl, hf⟩⟩)
        unfold Refusal at hr ⊢
        rw [← Hands.caps hf]
        exact hr
    · cases h
    · cases h
  · rintro (⟨rfl, f, u, rfl, hf⟩ | ⟨e, p, rfl, hr, ⟨f, rfl, hf⟩ | ⟨hs, hk, rfl, rfl⟩⟩ | ⟨rfl, h⟩)
    · exact Or.inr (Or.inr ⟨(), f, _, d', rfl, Or.inl ⟨rfl, hf⟩, _, rfl, rfl, Or.inl ⟨u, rfl, rfl⟩⟩)
    · refine Or.inr (Or.inr ⟨(), f, _, d', rfl, Or.inl ⟨rfl, hf⟩, p, rfl, rfl, Or.inr ⟨e, ?_, rfl⟩⟩)
      unfold Refusal at hr ⊢
      rw [Hands.caps hf]
      exact hr
    · exact Or.inl ⟨e, rfl, Or.inr (Or.inl ⟨e, p, rfl, hs, hk, rfl, hr, rfl⟩)⟩
    · exact Or.inr (Or.inl ⟨rfl, Or.inr (Or.inr ⟨rfl, h⟩)⟩)

theorem genData_iff (cr : Crypto) (p : AuthPlugin) (pass nonce : Bytes) (o : Options) (x : Option AuthData) :
    p.genData cr pass nonce o = .ok x ↔ Spec.Usable o p ∧ x = answerData cr.toHashes pass nonce p := by
  by_cases hu : Spec.Usable o p
  · rw [genData_answer cr p pass nonce o ?_ hu.2]
    · constructor
      · intro h
        cases h
        exact ⟨hu, rfl⟩
      · rintro ⟨_, rfl⟩
        rfl
    · cases h : o.authPlugin with
      | none => exact Or.inl rfl
      | some f => exact Or.inr (by rw [hu.1 f h])
  · constructor
    · intro h
      exfalso
      apply hu
      unfold AuthPlugin.genData at h
      constructor
      · intro f hf
        rw [hf] at h
        by_contra hne
        simp [Ne.symm hne] at h
      · rintro rfl
        dsimp only at h
        split at h
        · cases h
        · by_contra hc
          have hc' : o.allowCleartext = false := by simpa using hc
          simp [hc'] at h
    · rintro ⟨h, _⟩
      exact absurd h hu

theorem genData_calm (cr : Crypto) (p : AuthPlugin) (pass nonce : Bytes) (o : Options) :
    p.genData cr pass nonce o ≠ .panic := by
  unfold AuthPlugin.genData
  dsimp only
  repeat' split
  all_goals (intro h; cases h)

theorem genData_local (cr : Crypto) (p : AuthPlugin) (pass nonce : Bytes) (o : Options) (e : ErrPacket) :
    p.genData cr pass nonce o ≠ .err (.server e) := by
  unfold AuthPlugin.genData
  dsimp only
  repeat' split
  all_goals (intro h; cases h)

theorem answer_first (h : Hashes) (o : Options) (p : AuthPlugin) (nonce : Bytes) :
    ((answerData h (utf8 o.password) nonce p).map AuthData.bytes).getD [] = Spec.response h o p nonce false := by
  cases p
  · simp [answerData, Spec.response, AuthData.bytes]
  · unfold answerData Spec.response
    dsimp only
    cases scrambleNative h nonce (utf8 o.password) <;> rfl
  · unfold answerData Spec.response
    dsimp only
    cases scrambleSha256 h nonce (utf8 o.password) <;> rfl

theorem answer_own (h : Hashes) (o : Options) (p : AuthPlugin) (nonce : Bytes) :
    (match answerData h (utf8 o.password) nonce p with
      | some d => writePacket d.serialize
      | none => writePacket []) = writePacket (Spec.response h o p nonce true) := by
  cases p
  · rfl
  · unfold answerData Spec.response
    dsimp only
    cases scrambleNative h nonce (utf8 o.password) <;> rfl
  · unfold answerData Spec.response
    dsimp only
    cases scrambleSha256 h nonce (utf8 o.password) <;> rfl

theorem does_switchAuth (cr : Crypto) (sw : AuthSwitch) : Does (switchAuth cr sw) fun o d es t d' =>
    (d.authSwitched = true ∧ es = [] ∧ t = .panic ∧ d' = d) ∨
    (d.authSwitched = false ∧ Spec.Usable o sw.plugin ∧
      es = [.put (Spec.response cr.toHashes o sw.plugin sw.data true)] ∧ t = .ok () ∧
      d' = Spec.switched d sw.plugin sw.data) := by
  unfold switchAuth
  refine (Does.get_bind (fun _ d => if d.authSwitched then SM.crash else do
    SM.modify fun c =>
      { c with data := { c.data with authSwitched := true, authPlugin := sw.plugin, nonce := sw.data } }
    let c ← SM.get
    let data ← SM.ofOut
      (c.data.authPlugin.genData cr (utf8 c.options.password) c.data.nonce c.options)
    match data with
    | some d => writePacket d.serialize
    | none => writePacket []) (fun c => rfl)
    (S := fun _ d0 o d es t d' => (d0.authSwitched = true ∧ es = [] ∧ t = .panic ∧ d' = d) ∨
      (d0.authSwitched = false ∧ Spec.Usable o sw.plugin ∧
        es = [.put (Spec.response cr.toHashes o sw.plugin sw.data true)] ∧ t = .ok () ∧
        d' = Spec.switched d sw.plugin sw.data)) ?_)
  intro o0 d0
  by_cases h : d0.authSwitched = true
  · rw [if_pos h]
    refine Does.crash.weaken fun o d es t d' => ?_
    constructor
    · intro g
      exact Or.inl ⟨h, g⟩
    · rintro (⟨_, g⟩ | ⟨g, _⟩)
      · exact g
      · rw [h] at g; cases g
  · rw [if_neg h]
    have h' : d0.authSwitched = false := by simpa using h
    refine (Does.modify_bind (fun _ d => Spec.switched d sw.plugin sw.data) (fun c => rfl)
      (Does.get_bind (fun o d => SM.ofOut (d.authPlugin.genData cr (utf8 o.password) d.nonce o) >>= fun data =>
        match data with
        | some d => writePacket d.serialize
        | none => writePacket []) (fun c => rfl)
        (S := fun o0 d0 _ d es t d' => Spec.Usable o0 d0.authPlugin ∧
          es = [.put (Spec.response cr.toHashes o0 d0.authPlugin d0.nonce true)] ∧ t = .ok () ∧ d' = d)
        fun o d => ?_)).weaken fun o d es t d' => ?_
    · refine (Does.ofOut_bind (genData_local cr _ _ _ _) (S := fun data _ d es t d' => ∃ m, es = [.put m] ∧
        (match data with
          | some d => writePacket d.serialize
          | none => writePacket []) = writePacket m ∧ (match data with
          | some d => m = d.serialize
          | none => m = []) ∧ t = .ok () ∧ d' = d) fun data => ?_).weaken
        fun o1 d1 es t d' => ?_
      · cases data with
        | none =>
          refine (Does.write _).weaken fun o d es t d' => ?_
          constructor
          · rintro ⟨rfl, rfl, rfl⟩
            exact ⟨_, rfl, rfl, rfl, rfl, rfl⟩
          · rintro ⟨m, rfl, _, rfl, rfl, rfl⟩
            exact ⟨rfl, rfl, rfl⟩
        | some x =>
          refine (Does.write _).weaken fun o d es t d' => ?_
          constructor
          · rintro ⟨rfl, rfl, rfl⟩
            exact ⟨_, rfl, rfl, rfl, rfl, rfl⟩
          · rintro ⟨m, rfl, _, rfl, rfl, rfl⟩
            exact ⟨rfl, rfl, rfl⟩
      · have key : ∀ m, (match answerData cr.toHashes (utf8 o.password) d.nonce d.authPlugin with
            | some d => m = d.serialize
            | none => m = []) ↔ m = Spec.response cr.toHashes o d.authPlugin d.nonce true := by
          intro m
          unfold answerData Spec.response
          cases d.authPlugin
          · rfl
          · dsimp only
            cases scrambleNative cr.toHashes d.nonce (utf8 o.password) <;> rfl
          · dsimp only
            cases scrambleSha256 cr.toHashes d.nonce (utf8 o.password) <;> rfl
        constructor
        · rintro (⟨g, _⟩ | ⟨a, g, m, rfl, _, g2, rfl, rfl⟩)
          · exact absurd g (genData_calm _ _ _ _ _)
          · obtain ⟨hu, rfl⟩ := (genData_iff _ _ _ _ _ _).1 g
            rw [(key m).1 g2]
            exact ⟨hu, rfl, rfl, rfl⟩
        · rintro ⟨hu, rfl, rfl, rfl⟩
          exact Or.inr ⟨_, (genData_iff _ _ _ _ _ _).2 ⟨hu, rfl⟩, _, rfl, answer_own _ _ _ _, (key _).2 rfl, rfl, rfl⟩
    · constructor
      · rintro ⟨hu, rfl, rfl, rfl⟩
        exact Or.inr ⟨h', hu, rfl, rfl, rfl⟩
      · rintro (⟨g, _⟩ | ⟨_, hu, rfl, rfl, rfl⟩)
        · exact absurd g h
        · exact ⟨hu, rfl, rfl, rfl⟩

/-- what the last part of a login comes to. -/
def CloseRel (cr : Crypto) : Rel Unit := fun o d es t d' =>
  (t = .ok () ∧ Spec.Accepts cr o d es d') ∨
  (∃ e p, t = .server e ∧ Refusal d p e ∧ Spec.Refuses cr o d p es d') ∨
  (t = .panic ∧ ∃ u f, Spec.going o d = .sha2 ∧ es = .got (1 :: 4 :: u) :: f ∧ Spec.Breaks cr o d f d')

/-- with `n` requests to switch at most. -/
def ContRel (cr : Crypto) : Nat → Rel Unit
  | 0 => fun _ d es t d' => es = [] ∧ t = .panic ∧ d' = d
  | n + 1 => fun o d es t d' => CloseRel cr o d es t d' ∨
    (d.authSwitched = false ∧ ∃ q p nonce xs, Spec.SwitchForm q p nonce ∧ Spec.Usable o p ∧
      es = .got q :: .put (Spec.response cr.toHashes o p nonce true) :: xs ∧
      ContRel cr n o (Spec.switched d p nonce) xs t d')

theorem switchForm_iff (r : Bytes) (sw : AuthSwitch) :
    runP AuthSwitch.deserialize (0xFE :: r) = .ok sw ↔ Spec.SwitchForm (0xFE :: r) sw.plugin sw.data := by
  obtain ⟨p, d⟩ := sw
  rw [C73_switch]
  unfold Spec.SwitchForm
  constructor
  · rintro ⟨h, ⟨h1, h2⟩ | ⟨t, h1, h2⟩⟩
    · cases h1
      exact Or.inl ⟨rfl, h2⟩
    · rw [List.cons_append, List.cons.injEq] at h1
      obtain ⟨rfl, rfl⟩ := h1
      exact Or.inr ⟨t, rfl, h2⟩
  · intro h
    exact ⟨_, h⟩

theorem SwitchForm.fe {q : Bytes} {p : AuthPlugin} {nonce : Bytes} (h : Spec.SwitchForm q p nonce) :
    ∃ r, q = 0xFE :: r := by
  rcases h with ⟨rfl, _⟩ | ⟨t, rfl, _⟩
  · exact ⟨_, rfl⟩
  · exact ⟨_, rfl⟩

/-- what is done with a packet while the server decides. -/
def decide1 (cr : Crypto) (n : Nat) (plugin : AuthPlugin) (d : ConnData) (packet : Bytes) : M Unit :=
  match packet with
  | [] => authFailure packet
  | b :: r =>
    if b = 0x00 then pure ()
    else if b = 0x01 ∧ plugin = .sha2 then
      match r with
      | [] => SM.fail (.protocol (.unexpectedPacket packet))
      | s :: _ =>
        if s = 0x03 then do
          let _ ← readPacket
          pure ()
        else if s = 0x04 then fullAuth cr
        else SM.fail (.protocol (.unexpectedPacket packet))
    else if b = 0xFE ∧ d.authSwitched = false then do
      let sw ← liftP (runP AuthSwitch.deserialize packet)
      switchAuth cr sw
      continueAuth cr n
    else authFailure packet

/-- what that comes to; the packet itself has been read. -/
def DecideRel (cr : Crypto) (n : Nat) (p : Bytes) : Rel Unit := fun o d ys t d' =>
  ContRel cr (n + 1) o d (.got p :: ys) t d'

theorem Close_refusal {cr : Crypto} {o : Options} {d : ConnData} {p : Bytes} {ys : List Turn} {t : Tell Unit}
    {d' : ConnData} (h0 : ∀ r, p ≠ 0 :: r) (h1 : ∀ s r, p = 1 :: s :: r → Spec.going o d = .sha2 → s ≠ 3 ∧ s ≠ 4) :
    CloseRel cr o d (.got p :: ys) t d' ↔ ∃ e, Refusal d p e ∧ ys = [] ∧ t = .server e ∧ d' = d := by
  constructor
  · rintro (⟨rfl, h⟩ | ⟨e, q, rfl, hr, h⟩ | ⟨rfl, u, f, hg, he, h⟩)
    · cases h with
      | ok => exact absurd rfl (h0 _)
      | fast hg => exact absurd rfl (h1 _ _ rfl hg).1
      | full hg => exact absurd rfl (h1 _ _ rfl hg).2
    · cases h with
      | at_once => exact ⟨e, hr, rfl, rfl, rfl⟩
      | key hg => exact absurd rfl (h1 _ _ rfl hg).2
      | full hg => exact absurd rfl (h1 _ _ rfl hg).2
    · cases he
      exact absurd rfl (h1 _ _ rfl hg).2
  · rintro ⟨e, hr, rfl, rfl, rfl⟩
    exact Or.inr (Or.inl ⟨e, p, rfl, hr, .at_once⟩)

theorem does_decide1 (cr : Crypto) (n : Nat) (ih : Does (continueAuth cr n) (ContRel cr n)) (o0 : Options)
    (d0 : ConnData) (p : Bytes) :
    ∀ c t c', c.options = o0 → c.data = d0 → (decide1 cr n (Spec.going o0 d0) d0 p c = (t.out, c') ↔
      ∃ ys d' c1, Talk c ys c1 ∧ DecideRel cr n p o0 d0 ys t d' ∧ c' = { c1 with data := d' }) := by
  -- each branch is described for all states; what is known is fixed only where it is used
  suffices H : ∃ R : Rel Unit, Does (decide1 cr n (Spec.going o0 d0) d0 p) R ∧
      ∀ ys t d', R o0 d0 ys t d' ↔ DecideRel cr n p o0 d0 ys t d' by
    obtain ⟨R, h1, h2⟩ := H
    rintro c t c' rfl rfl
    rw [h1]
    simp only [h2]
  have noSwitch : ∀ {p : Bytes} {ys t d'}, (∀ r, p = 0xFE :: r → d0.authSwitched ≠ false) →
      (DecideRel cr n p o0 d0 ys t d' ↔ CloseRel cr o0 d0 (.got p :: ys) t d') := by
    intro p ys t d' hp
    constructor
    · rintro (h | ⟨hs, q, pl, nonce, xs, hq, _, he, _⟩)
      · exact h
      · cases he
        obtain ⟨r, rfl⟩ := SwitchForm.fe hq
        exact absurd hs (hp r rfl)
    · exact Or.inl
  have refusal : ∀ (p : Bytes), (∀ r, p ≠ 0 :: r) →
      (∀ s r, p = 1 :: s :: r → Spec.going o0 d0 = .sha2 → s ≠ 3 ∧ s ≠ 4) →
      (∀ r, p = 0xFE :: r → d0.authSwitched ≠ false) → ∀ ys t d',
      ((∃ e, Refusal d0 p e ∧ ys = [] ∧ t = Tell.server e ∧ d' = d0) ↔ DecideRel cr n p o0 d0 ys t d') := by
    intro p h0 h1 h2 ys t d'
    rw [noSwitch h2, Close_refusal h0 h1]
  unfold decide1
  cases p with
  | nil =>
    exact ⟨_, does_authFailure _, refusal _ (fun r h => by cases h) (fun s r h => by cases h) (fun r h => by cases h)⟩
  | cons b r =>
    dsimp only
    by_cases h0 : b = 0
    · subst h0
      rw [if_pos rfl]
      refine ⟨_, Does.pure _, fun ys t d' => ?_⟩
      rw [noSwitch (fun r h => by cases h)]
      constructor
      · rintro ⟨rfl, rfl, rfl⟩
        exact Or.inl ⟨rfl, .ok⟩
      · rintro (⟨rfl, h⟩ | ⟨e, q, rfl, hr, h⟩ | ⟨rfl, u, f, hg, he, h⟩)
        · cases h with
          | ok => exact ⟨rfl, rfl, rfl⟩
        · cases h with
          | at_once =>
            obtain ⟨_, h⟩ := hr.ff
            cases h
        · cases he
    · rw [if_neg h0]
      by_cases h1 : b = 1 ∧ Spec.going o0 d0 = .sha2
      · rw [if_pos h1]
        obtain ⟨rfl, hg⟩ := h1
        cases r with
        | nil =>
          refine ⟨_, Does.fail _, fun ys t d' => ?_⟩
          rw [noSwitch (fun r h => by cases h), Close_refusal (fun r h => by cases h) (fun s r h => by cases h)]
          constructor
          · exact False.elim
          · rintro ⟨e, hr, _⟩
            obtain ⟨_, h⟩ := hr.ff
            cases h
        | cons s u =>
          dsimp only
          by_cases h3 : s = 3
          · subst h3
            rw [if_pos rfl]
            refine ⟨_, Does.read_bind fun _ => Does.pure _, fun ys t d' => ?_⟩
            rw [noSwitch (fun r h => by cases h)]
            constructor
            · rintro ⟨p, _, rfl, rfl, rfl, rfl⟩
              exact Or.inl ⟨rfl, .fast hg⟩
            · rintro (⟨rfl, h⟩ | ⟨e, q, rfl, hr, h⟩ | ⟨rfl, u, f, hg, he, h⟩)
              · cases h with
                | fast => exact ⟨_, _, rfl, rfl, rfl, rfl⟩
              · cases h with
                | at_once =>
                  obtain ⟨_, h⟩ := hr.ff
                  cases h
              · cases he
          · rw [if_neg h3]
            by_cases h4 : s = 4
            · subst h4
              rw [if_pos rfl]
              refine ⟨_, does_fullAuth cr, fun ys t d' => ?_⟩
              rw [noSwitch (fun r h => by cases h)]
              constructor
              · rintro (⟨rfl, f, w, rfl, hf⟩ | ⟨e, p, rfl, hr, ⟨f, rfl, hf⟩ | ⟨hs, hk, rfl, rfl⟩⟩ | ⟨rfl, h⟩)
                · exact Or.inl ⟨rfl, .full hg hf⟩
                · exact Or.inr (Or.inl ⟨e, p, rfl, hr, .full hg hf⟩)
                · exact Or.inr (Or.inl ⟨e, p, rfl, hr, .key hg hs hk⟩)
                · exact Or.inr (Or.inr ⟨rfl, u, ys, hg, rfl, h⟩)
              · rintro (⟨rfl, h⟩ | ⟨e, q, rfl, hr, h⟩ | ⟨rfl, u, f, hg, he, h⟩)
                · cases h with
                  | full _ hf => exact Or.inl ⟨rfl, _, _, rfl, hf⟩
                · cases h with
                  | at_once =>
                    obtain ⟨_, h⟩ := hr.ff
                    cases h
                  | key _ hs hk => exact Or.inr (Or.inl ⟨e, q, rfl, hr, Or.inr ⟨hs, hk, rfl, rfl⟩⟩)
                  | full _ hf => exact Or.inr (Or.inl ⟨e, q, rfl, hr, Or.inl ⟨_, rfl, hf⟩⟩)
                · cases he
                  exact Or.inr (Or.inr ⟨rfl, h⟩)
            · rw [if_neg h4]
              refine ⟨_, Does.fail _, fun ys t d' => ?_⟩
              rw [noSwitch (fun r h => by cases h), Close_refusal (fun r h => by cases h)
                (fun s r h _ => by cases h; exact ⟨h3, h4⟩)]
              constructor
              · exact False.elim
              · rintro ⟨e, hr, _⟩
                obtain ⟨_, h⟩ := hr.ff
                cases h
      · rw [if_neg h1]
        have nofast : ∀ s r', b :: r = 1 :: s :: r' → Spec.going o0 d0 = .sha2 → s ≠ 3 ∧ s ≠ 4 := by
          intro s r' h hg
          cases h
          exact absurd ⟨rfl, hg⟩ h1
        have nozero : ∀ r', b :: r ≠ 0 :: r' := by
          intro r' h
          cases h
          exact h0 rfl
        by_cases h2 : b = 0xFE ∧ d0.authSwitched = false
        · rw [if_pos h2]
          obtain ⟨rfl, hs⟩ := h2
          refine ⟨_, Does.ofOut_bind (mapErr_local _ _) fun sw =>
            Does.bind (S := fun _ => ContRel cr n) (does_switchAuth cr sw) fun _ => ih, fun ys t d' => ?_⟩
          rw [mapErr_panic_iff]
          simp only [mapErr_ok_iff]
          constructor
          · rintro (⟨h, _⟩ | ⟨sw, hsw, ⟨e, rfl, ⟨h, _⟩ | ⟨_, _, _, h, _⟩⟩ | ⟨rfl, ⟨h, _⟩ | ⟨_, _, _, h, _⟩⟩ |
              ⟨_, xs, zs, d1, rfl, ⟨h, _⟩ | ⟨_, hu, rfl, _, rfl⟩, hc⟩⟩)
            · exact absurd h (switch_calm _)
            · rw [hs] at h; cases h
            · cases h
            · rw [hs] at h; cases h
            · cases h
            · rw [hs] at h; cases h
            · exact Or.inr ⟨hs, _, _, _, zs, (switchForm_iff _ _).1 hsw, hu, rfl, hc⟩
          · rintro (h | ⟨_, q, pl, nonce, xs, hq, hu, he, hc⟩)
            · obtain ⟨e, hr, _⟩ := (Close_refusal nozero nofast).1 h
              obtain ⟨_, h⟩ := hr.ff
              cases h
            · cases he
              exact Or.inr ⟨⟨pl, nonce⟩, (switchForm_iff _ _).2 hq, Or.inr (Or.inr
                ⟨(), [_], xs, _, rfl, Or.inr ⟨hs, hu, rfl, rfl, rfl⟩, hc⟩)⟩
        · rw [if_neg h2]
          exact ⟨_, does_authFailure _, refusal _ nozero nofast (fun r' h hs => by cases h; exact h2 ⟨rfl, hs⟩)⟩

theorem does_continueAuth (cr : Crypto) (n : Nat) : Does (continueAuth cr n) (ContRel cr n) := by
  induction n with
  | zero => exact Does.crash
  | succ n ih =>
    intro c t c'
    have he : continueAuth cr (n + 1) c =
        (readPacket >>= fun p => SM.get >>= fun c2 => decide1 cr n (Spec.going c.options c.data) c2.data p) c := rfl
    rw [he]
    constructor
    · intro h
      cases hr : readPacket c with
      | mk o c1 =>
        cases o with
        | ok p =>
          rw [SM.bind_of_ok hr, SM.get_bind_apply] at h
          have ht := (C76_packet _ _ _).1 hr
          have hk := Talk.keeps (es := [.got p]) ⟨c1, ht, rfl⟩
          rw [hk.1] at h
          obtain ⟨ys, d', c2, h2, h3, rfl⟩ := (does_decide1 cr n ih c.options c.data p c1 t c' hk.2.1 hk.1).1 h
          exact ⟨.got p :: ys, d', c2, ⟨_, ht, h2⟩, h3, rfl⟩
        | err e =>
          rw [SM.bind_of_err hr] at h
          cases t with
          | ok b => cases h
          | server e =>
            cases h
            exact absurd hr (Local.readPacket _ _ _)
          | panic => cases h
        | panic => exact absurd (congrArg Prod.fst hr) (readPacket_not_panic c)
    · rintro ⟨es, d', c1, h1, h2, rfl⟩
      have hh : ∃ p ys, es = .got p :: ys := by
        rcases h2 with (⟨_, h⟩ | ⟨_, _, _, _, h⟩ | ⟨_, u, f, _, h, _⟩) | ⟨_, q, _, _, xs, _, _, h, _⟩
        · cases h <;> exact ⟨_, _, rfl⟩
        · cases h <;> exact ⟨_, _, rfl⟩
        · exact ⟨_, _, h⟩
        · exact ⟨_, _, h⟩
      obtain ⟨p, ys, rfl⟩ := hh
      obtain ⟨c2, h3, h4⟩ := h1
      rw [SM.bind_of_ok ((C76_packet _ _ _).2 h3), SM.get_bind_apply]
      have hk := Talk.keeps (es := [.got p]) ⟨c2, h3, rfl⟩
      rw [hk.1]
      exact (does_decide1 cr n ih c.options c.data p c2 t _ hk.2.1 hk.1).2 ⟨ys, d', c1, h4, h2, rfl⟩

/-- the greeting. -/
theorem does_greeting (alnum : Char → Bool) : Does (handleHandshake alnum) fun o d es t d' =>
    ∃ g, es = [.got g] ∧ ((Spec.Greets alnum o g d' ∧ t = .ok ()) ∨
      ((∀ x, ¬ Spec.Greets alnum o g x) ∧ t = .panic ∧ d' = d)) := by
  unfold handleHandshake
  refine (Does.read_bind (S := fun g o d ys t d' => ys = [] ∧ ((Spec.Greets alnum o g d' ∧ t = .ok ()) ∨
      ((∀ x, ¬ Spec.Greets alnum o g x) ∧ t = .panic ∧ d' = d))) fun g => ?_).weaken fun o d es t d' => ?_
  · have none : (∀ hs v, runP Handshake.deserialize g = .ok hs → parseServerVersion alnum hs.serverVersion ≠ .ok v) →
        ∀ o x, ¬ Spec.Greets alnum o g x := by
      rintro h o x ⟨hs, v, h1, h2, _⟩
      exact h hs v ((C73_greeting _ _).2 h1) h2
    have broken : (∀ o x, ¬ Spec.Greets alnum o g x) → Does (SM.crash : M Unit) fun o d ys t d' => ys = [] ∧
        ((Spec.Greets alnum o g d' ∧ t = .ok ()) ∨ ((∀ x, ¬ Spec.Greets alnum o g x) ∧ t = .panic ∧ d' = d)) := by
      intro h
      refine Does.crash.weaken fun o d es t d' => ?_
      constructor
      · rintro ⟨rfl, rfl, rfl⟩
        exact ⟨rfl, Or.inr ⟨h o, rfl, rfl⟩⟩
      · rintro ⟨rfl, ⟨g, _⟩ | ⟨_, rfl, rfl⟩⟩
        · exact absurd g (h _ _)
        · exact ⟨rfl, rfl, rfl⟩
    cases hd : runP Handshake.deserialize g with
    | ok hs =>
      dsimp only
      cases hv : parseServerVersion alnum hs.serverVersion with
      | ok v =>
        refine (Does.modify (fun o _ => connDataOf o hs v) (fun c => rfl)).weaken fun o d es t d' => ?_
        have hg : ∀ x, Spec.Greets alnum o g x ↔ x = connDataOf o hs v := by
          intro x
          constructor
          · rintro ⟨hs', v', h1, h2, rfl⟩
            have := (C73_greeting _ _).2 h1
            rw [hd] at this
            cases this
            rw [hv] at h2
            cases h2
            rfl
          · rintro rfl
            exact ⟨hs, v, (C73_greeting _ _).1 hd, hv, rfl⟩
        constructor
        · rintro ⟨rfl, rfl, rfl⟩
          exact ⟨rfl, Or.inl ⟨(hg _).2 rfl, rfl⟩⟩
        · rintro ⟨rfl, ⟨h, rfl⟩ | ⟨h, _⟩⟩
          · exact ⟨rfl, rfl, (hg _).1 h⟩
          · exact absurd ((hg _).2 rfl) (h _)
      | err e => exact e.elim
      | panic =>
        refine broken (none fun hs' v h => ?_)
        rw [hd] at h
        cases h
        rw [hv]
        intro h
        cases h
    | err e =>
      refine broken (none fun hs' v h => ?_)
      rw [hd] at h
      cases h
    | panic =>
      refine broken (none fun hs' v h => ?_)
      rw [hd] at h
      cases h
  · constructor
    · rintro ⟨g, _, rfl, rfl, h⟩
      exact ⟨g, rfl, h⟩
    · rintro ⟨g, rfl, h⟩
      exact ⟨g, [], rfl, rfl, h⟩

theorem usable_going (o : Options) (d : ConnData) : Spec.Usable o (Spec.going o d) ↔
    (Spec.going o d = .clear → o.allowCleartext = true) := by
  constructor
  · exact And.right
  · intro h
    refine ⟨fun f hf => ?_, h⟩
    unfold Spec.going
    rw [hf]
    rfl

theorem does_request (cr : Crypto) : Does (doHandshakeResponse cr) fun o d es t d' =>
    Spec.Usable o (Spec.going o d) ∧ es = [.put (Spec.request cr.toHashes o d)] ∧ t = .ok () ∧ d' = d := by
  refine (Does.get_bind (fun o d => SM.ofOut ((Spec.going o d).genData cr (utf8 o.password) d.nonce o) >>= fun data =>
    writePacket (handshakeResponse ((data.map AuthData.bytes).getD []) d.version
      (utf8 o.user) (o.dbName.map utf8) (some (Spec.going o d)) d.capabilities
      (UInt32.ofNat d.maxAllowedPacket))) (fun c => rfl)
    (S := fun o0 d0 _ d es t d' => Spec.Usable o0 (Spec.going o0 d0) ∧
      es = [.put (Spec.request cr.toHashes o0 d0)] ∧ t = .ok () ∧ d' = d) ?_)
  intro o0 d0
  refine (Does.ofOut_bind (genData_local cr _ _ _ _) fun data => Does.write _).weaken fun o d es t d' => ?_
  have hq : ∀ data, data = answerData cr.toHashes (utf8 o0.password) d0.nonce (Spec.going o0 d0) →
      handshakeResponse ((data.map AuthData.bytes).getD []) d0.version (utf8 o0.user) (o0.dbName.map utf8)
        (some (Spec.going o0 d0)) d0.capabilities (UInt32.ofNat d0.maxAllowedPacket) =
      Spec.request cr.toHashes o0 d0 := by
    rintro _ rfl
    rw [answer_first]
    rfl
  constructor
  · rintro (⟨h, _⟩ | ⟨data, h, rfl, rfl, rfl⟩)
    · exact absurd h (genData_calm _ _ _ _ _)
    · obtain ⟨hu, hd⟩ := (genData_iff _ _ _ _ _ _).1 h
      rw [hq _ hd]
      exact ⟨hu, rfl, rfl, rfl⟩
  · rintro ⟨hu, rfl, rfl, rfl⟩
    exact Or.inr ⟨_, (genData_iff _ _ _ _ _ _).2 ⟨hu, rfl⟩, by rw [hq _ rfl], rfl, rfl⟩

/-- two requests to switch are never followed. -/
theorem cont_two (cr : Crypto) (o : Options) (d : ConnData) (es : List Turn) (t : Tell Unit) (d' : ConnData)
    (h : d.authSwitched = false) : ContRel cr 2 o d es t d' ↔
      ∃ w f d1, es = w ++ f ∧ Spec.Waits cr.toHashes o d w d1 ∧ CloseRel cr o d1 f t d' := by
  constructor
  · rintro (hc | ⟨_, q, p, nonce, xs, hq, hu, rfl, hc | ⟨h, _⟩⟩)
    · exact ⟨[], es, d, rfl, Or.inl ⟨rfl, rfl⟩, hc⟩
    · exact ⟨[_, _], xs, _, rfl, Or.inr ⟨h, q, p, nonce, hq, hu, rfl, rfl⟩, hc⟩
    · cases h
  · rintro ⟨w, f, d1, rfl, ⟨rfl, rfl⟩ | ⟨_, q, p, nonce, hq, hu, rfl, rfl⟩, hc⟩
    · exact Or.inl hc
    · exact Or.inr ⟨h, q, p, nonce, f, hq, hu, rfl, Or.inl hc⟩

theorem Greets.fresh {alnum : Char → Bool} {o : Options} {g : Bytes} {d : ConnData} (h : Spec.Greets alnum o g d) :
    d.authSwitched = false := by
  obtain ⟨hs, v, _, _, rfl⟩ := h
  rfl

/-- what a login comes to. -/
theorem does_login (cr : Crypto) (alnum : Char → Bool) : Does (login cr alnum) fun o d es t d' =>
    (∃ g, es = [.got g] ∧ (∀ x, ¬ Spec.Greets alnum o g x) ∧ t = .panic ∧ d' = d) ∨
    ∃ g d0 w f d1, Spec.Greets alnum o g d0 ∧ Spec.Usable o (Spec.going o d0) ∧
      es = .got g :: .put (Spec.request cr.toHashes o d0) :: w ++ f ∧ Spec.Waits cr.toHashes o d0 w d1 ∧
      CloseRel cr o d1 f t d' := by
  refine (Does.bind (does_greeting alnum) fun _ => Does.bind (does_request cr) fun _ =>
    does_continueAuth cr 2).weaken fun o d es t d' => ?_
  constructor
  · rintro (⟨e, rfl, g, rfl, ⟨_, h⟩ | ⟨_, h, _⟩⟩ | ⟨rfl, g, rfl, ⟨_, h⟩ | ⟨h, _, rfl⟩⟩ |
      ⟨_, xs, ys, d0, rfl, ⟨g, rfl, ⟨hg, _⟩ | ⟨_, h, _⟩⟩, h2⟩)
    · cases h
    · cases h
    · cases h
    · exact Or.inl ⟨g, rfl, h, rfl, rfl⟩
    · rcases h2 with ⟨e, rfl, _, _, h, _⟩ | ⟨rfl, _, _, h, _⟩ | ⟨_, xs, zs, _, rfl, ⟨hu, rfl, _, rfl⟩, hc⟩
      · cases h
      · cases h
      · obtain ⟨w, f, d1, rfl, hw, hc⟩ := (cont_two _ _ _ _ _ _ (Greets.fresh hg)).1 hc
        exact Or.inr ⟨g, _, w, f, d1, hg, hu, rfl, hw, hc⟩
    · cases h
  · rintro (⟨g, rfl, h, rfl, rfl⟩ | ⟨g, d0, w, f, d1, hg, hu, rfl, hw, hc⟩)
    · exact Or.inr (Or.inl ⟨rfl, g, rfl, Or.inr ⟨h, rfl, rfl⟩⟩)
    · refine Or.inr (Or.inr ⟨(), [.got g], .put (Spec.request cr.toHashes o d0) :: w ++ f, d0, rfl,
        ⟨g, rfl, Or.inl ⟨hg, rfl⟩⟩, Or.inr (Or.inr
        ⟨(), [.put (Spec.request cr.toHashes o d0)], w ++ f, d0, rfl, ⟨hu, rfl, rfl, rfl⟩,
          (cont_two _ _ _ _ _ _ (Greets.fresh hg)).2 ⟨w, f, d1, rfl, hw, hc⟩⟩)⟩)

/-- **C78**, success: a login succeeds exactly with the conversations in which the server greets readably, is sent the
login request, asks for one other plugin at most, and then accepts; … -/
theorem C78_accepted (cr : Crypto) (alnum : Char → Bool) (c c' : Conn) :
    login cr alnum c = (.ok (), c') ↔
      ∃ g d0 w d1 f d2 c1, Talk c (.got g :: .put (Spec.request cr.toHashes c.options d0) :: w ++ f) c1 ∧
        Spec.Greets alnum c.options g d0 ∧ (Spec.going c.options d0 = .clear → c.options.allowCleartext = true) ∧
        Spec.Waits cr.toHashes c.options d0 w d1 ∧ Spec.Accepts cr c.options d1 f d2 ∧
        c' = { c1 with data := d2 } := by
  rw [show (Out.ok () : Out Error Unit) = Tell.out (.ok ()) from rfl, does_login cr alnum c (.ok ()) c']
  constructor
  · rintro ⟨es, d2, c1, ht, ⟨_, _, _, h, _⟩ | ⟨g, d0, w, f, d1, hg, hu, rfl, hw, ⟨_, ha⟩ | ⟨_, _, h, _⟩ | ⟨h, _⟩⟩, rfl⟩
    · cases h
    · exact ⟨g, d0, w, d1, f, d2, c1, ht, hg, hu.2, hw, ha, rfl⟩
    · cases h
    · cases h
  · rintro ⟨g, d0, w, d1, f, d2, c1, ht, hg, hu, hw, ha, rfl⟩
    exact ⟨_, d2, c1, ht, Or.inr ⟨g, d0, w, f, d1, hg, (usable_going _ _).2 hu, rfl, hw, Or.inl ⟨rfl, ha⟩⟩, rfl⟩

/-- … it reports an error of the server exactly with those in which the server refuses instead, and reports what the
refusal says; … -/
theorem C78_refused (cr : Crypto) (alnum : Char → Bool) (c c' : Conn) (code : UInt16) (state : Option Bytes) (msg : Str) :
    login cr alnum c = (.err (.server (.error code state msg)), c') ↔
      ∃ g d0 w d1 f d2 p c1, Talk c (.got g :: .put (Spec.request cr.toHashes c.options d0) :: w ++ f) c1 ∧
        Spec.Greets alnum c.options g d0 ∧ (Spec.going c.options d0 = .clear → c.options.allowCleartext = true) ∧
        Spec.Waits cr.toHashes c.options d0 w d1 ∧ Spec.Refuses cr c.options d1 p f d2 ∧
        Spec.ErrForm d0.capabilities p code state msg ∧ c' = { c1 with data := d2 } := by
  have hcap : ∀ {d0 d1 w}, Spec.Waits cr.toHashes c.options d0 w d1 → d1.capabilities = d0.capabilities := by
    rintro d0 d1 w (⟨_, rfl⟩ | ⟨_, q, p, nonce, _, _, _, rfl⟩) <;> rfl
  rw [show (Out.err (.server (.error code state msg)) : Out Error Unit) = Tell.out (.server (.error code state msg)) from
    rfl, does_login cr alnum c _ c']
  constructor
  · rintro ⟨es, d2, c1, ht, ⟨_, _, _, h, _⟩ | ⟨g, d0, w, f, d1, hg, hu, rfl, hw, ⟨h, _⟩ | ⟨_, p, h, hr, hf⟩ | ⟨h, _⟩⟩, rfl⟩
    · cases h
    · cases h
    · cases h
      refine ⟨g, d0, w, d1, f, d2, p, c1, ht, hg, hu.2, hw, hf, ?_, rfl⟩
      rw [← hcap hw]
      exact (errForm_iff _ _ _ _ _).1 hr
    · cases h
  · rintro ⟨g, d0, w, d1, f, d2, p, c1, ht, hg, hu, hw, hf, hr, rfl⟩
    rw [← hcap hw] at hr
    exact ⟨_, d2, c1, ht, Or.inr ⟨g, d0, w, f, d1, hg, (usable_going _ _).2 hu, rfl, hw,
      Or.inr (Or.inl ⟨_, p, rfl, (errForm_iff _ _ _ _ _).2 hr, hf⟩)⟩, rfl⟩

/-- … and it panics exactly at a greeting it cannot read, and at the password of the SHA-2 plugin that cannot be
encrypted: with an empty challenge, with a key that the encryption panics at, or with a text that is no key. -/
theorem C78_panic (cr : Crypto) (alnum : Char → Bool) (c c' : Conn) :
    login cr alnum c = (.panic, c') ↔
      (∃ g, Talk c [.got g] c' ∧ ∀ d, ¬ Spec.Greets alnum c.options g d) ∨
      ∃ g d0 w d1 u f d2 c1, Talk c (.got g :: .put (Spec.request cr.toHashes c.options d0) :: w ++
          .got (1 :: 4 :: u) :: f) c1 ∧
        Spec.Greets alnum c.options g d0 ∧ (Spec.going c.options d0 = .clear → c.options.allowCleartext = true) ∧
        Spec.Waits cr.toHashes c.options d0 w d1 ∧ Spec.going c.options d1 = .sha2 ∧
        Spec.Breaks cr c.options d1 f d2 ∧ c' = { c1 with data := d2 } := by
  rw [show (Out.panic : Out Error Unit) = Tell.out .panic from rfl, does_login cr alnum c .panic c']
  constructor
  · rintro ⟨es, d2, c1, ht, ⟨g, rfl, hn, _, rfl⟩ | ⟨g, d0, w, f, d1, hg, hu, rfl, hw, ⟨h, _⟩ | ⟨_, _, h, _⟩ |
      ⟨_, u, f, h1, rfl, h2⟩⟩, rfl⟩
    · refine Or.inl ⟨g, ?_, hn⟩
      have := (Talk.keeps ht).1
      rw [← this]
      exact ht
    · cases h
    · cases h
    · exact Or.inr ⟨g, d0, w, d1, u, f, d2, c1, ht, hg, hu.2, hw, h1, h2, rfl⟩
  · rintro (⟨g, ht, hn⟩ | ⟨g, d0, w, d1, u, f, d2, c1, ht, hg, hu, hw, h1, h2, rfl⟩)
    · refine ⟨_, c.data, c', ht, Or.inl ⟨g, rfl, hn, rfl, rfl⟩, ?_⟩
      rw [← (Talk.keeps ht).1]
    · exact ⟨_, d2, c1, ht, Or.inr ⟨g, d0, w, _, d1, hg, (usable_going _ _).2 hu, rfl, hw,
        Or.inr (Or.inr ⟨rfl, u, f, h1, rfl, h2⟩)⟩, rfl⟩

namespace C78ex

def greeting : Bytes := (C36.greeting "8.0.34" 21 ((List.range 12).map UInt8.ofNat ++ [0])).encode

/-- run the client against these packets of a server, each with the number at which it is expected. -/
def run (o : Options) (ps : List (UInt8 × Bytes)) : Out Error Unit × Nat :=
  let r := login C28.crypto C28.asciiAlnum
    (Conn.initial o (rxOf (Spec.frames 0 greeting ++ ps.flatMap fun p => Spec.frames p.1 p.2)) [])
  (r.1, r.2.rx.length)

def denied : Bytes := Spec.errPacket 1045 (some (utf8 "28000".toList)) "Access denied".toList

/-- a request to switch to the SHA-2 plugin without a challenge. -/
def bare : Bytes := 0xFE :: ascii "caching_sha2_password" ++ [0]

end C78ex

open C78ex in
/-- accepted at once, after a switch, and although a refusal follows the fast way; refused at once and when the key is
asked for; panics at a challenge that is empty and at a greeting that is cut off; a second request to switch is neither
followed nor an error of the server. -/
theorem C78_example :
    run C28.opts [(2, [0])] = (.ok (), 0) ∧
    run C28.opts [(2, bare), (4, [0])] = (.ok (), 0) ∧
    run C28.opts [(2, [1, 3]), (3, denied)] = (.ok (), 0) ∧
    run C28.opts [(2, denied)] =
      (.err (.server (.error 1045 (some (utf8 "28000".toList)) "Access denied".toList)), 0) ∧
    run C28.opts [(2, [1, 4]), (4, denied)] =
      (.err (.server (.error 1045 (some (utf8 "28000".toList)) "Access denied".toList)), 0) ∧
    run { C28.opts with serverKey := some { modulus := 3233, exponent := 17 } } [(2, bare), (4, [1, 4])] = (.panic, 0) ∧
    (login C28.crypto C28.asciiAlnum (Conn.initial C28.opts (rxOf (Spec.frames 0 (greeting.take 20))) [])).1 = .panic ∧
    run C28.opts [(2, bare), (4, bare)] = (.err (.protocol (.unexpectedPacket bare)), 0) := by
  refine ⟨?_, ?_, ?_, ?_, ?_, ?_, ?_, ?_⟩ <;> decide +kernel

end Verif

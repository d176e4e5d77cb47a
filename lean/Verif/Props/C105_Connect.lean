import Verif.Model.NarrowAuth
import Verif.Props.C105_Narrow
import Verif.Proofs.Auth
import Verif.Proofs.DataKept
import Verif.Props.C33_Oaep
import Verif.Props.C28_Password
import Verif.Spec.Response

/-!
# C105 A target with addresses of 32 bits behaves like one with 64: connecting
-/

namespace Verif

open Spec (Tame UsualStream Took)

/-- the size of the key can be computed on both targets (`C105_size_partial`). -/
def Spec.SmallKey (k : PublicKey) : Prop := Spec.bitLength k.modulus < 2 ^ 32 - 6

/-- the keys that may be used are of this kind: the one that is configured, and every text that the server may send for one;
and no such text is read differently by the targets (`C105_key_partial` says which are not). -/
structure Spec.KeysRead (c : Conn) : Prop where
  configured : ∀ k, c.options.serverKey = some k → Spec.SmallKey k
  sent : ∀ c1 p c2, c1.rx <:+ c.rx → Took c1 [0x01 :: p] c2 →
    Narrow.tryFromPem p = tryFromPem p ∧ ∀ k, tryFromPem p = .ok k → Spec.SmallKey k

/-- a limit that is configured is a number of this target. -/
def Spec.LimitFits (c : Conn) : Prop := ∀ n, c.options.maxAllowedPacket = some n → n < 2 ^ 32

namespace Narrow

theorem oaepPad_same (h : Hashes) (h1 : ∀ x, (h.sha1 x).length = 20) (seed data : Bytes) (n : Nat) (hn : n < 2 ^ 32) :
    oaepPad h seed data n = Verif.oaepPad h seed data n := by
  unfold oaepPad Verif.oaepPad
  split
  · rfl
  · rename_i hf
    have hl : (h.sha1 [] ++ List.replicate (n - HASH_LEN - 1 - data.length - 1 - HASH_LEN) 0 ++ [1] ++ data).length < 2 ^ 32 := by
      unfold HASH_LEN at hf ⊢
      simp only [List.length_append, h1, List.length_replicate, List.length_cons, List.length_nil]
      omega
    dsimp only
    rw [C105_mask h seed _ hl]
    have : ∀ m, mgf1 h m HASH_LEN = Verif.mgf1 h m HASH_LEN := fun m => C105_mask h m _ (by unfold HASH_LEN; omega)
    simp only [this]

theorem encryptPadded_same (h : Hashes) (h1 : ∀ x, (h.sha1 x).length = 20) (seed data : Bytes) (k : PublicKey)
    (hk : Spec.SmallKey k) : encryptPadded h seed k data = k.encryptPadded h seed data := by
  unfold encryptPadded PublicKey.encryptPadded
  have hb : natBits k.modulus < 2 ^ 32 - 6 := hk
  rw [C105_size_partial true k hk, Out.ok_bind, oaepPad_same h h1 _ _ _ (by unfold PublicKey.numOctets; omega)]

/-- without the capability for reports of progress there are no lengths in errors. -/
theorem errPacket_same (caps : UInt32) (hc : hasFlag32 caps Cap.PROGRESS_OBSOLETE = false) :
    errPacket caps = ErrPacket.deserialize caps := by
  unfold errPacket ErrPacket.deserialize
  simp only [hc]
  simp

section
variable (c0 : Conn)

/-- what holds from the handshake on. -/
structure Inv (c : Conn) : Prop where
  rx : c.rx <:+ c0.rx
  key : ∀ k, c.data.serverKey = some k → Spec.SmallKey k
  caps : hasFlag32 c.data.capabilities Cap.PROGRESS_OBSOLETE = false
  limit : c.data.maxAllowedPacket < 2 ^ 32

variable {c0} {α β : Type}

theorem inv_writePacket (bs : Bytes) : Keeps (Inv c0) (writePacket bs) := by
  intro c a c' hc h
  obtain ⟨t, f, s, x, h1, _⟩ := writePacket_gen bs c
  rw [h1] at h
  cases h
  exact ⟨hc.rx, hc.key, hc.caps, hc.limit⟩

theorem inv_readPacket : Keeps (Inv c0) readPacket := by
  intro c a c' hc h
  have hd := readPacket_data c
  rw [h] at hd
  exact ⟨(Shrinks.readPacket c a c' h).trans hc.rx, hd ▸ hc.key, hd ▸ hc.caps, hd ▸ hc.limit⟩

theorem inv_switch (cr : Crypto) (sw : AuthSwitch) : Keeps (Inv c0) (switchAuth cr sw) := by
  unfold switchAuth
  refine Keeps.get.bind fun c => Keeps.ite (Keeps.crash) (Keeps.bind ?_ fun _ => Keeps.get.bind fun c =>
    (Keeps.ofOut _).bind fun d => ?_)
  · intro c a c' hc h
    cases h
    exact ⟨hc.rx, hc.key, hc.caps, hc.limit⟩
  · cases d with
    | some d => exact inv_writePacket _
    | none => exact inv_writePacket _

/-- looking at the connection. -/
theorem Exact.look {f f' : Conn → M β} (hf : ∀ c, Inv c0 c → Exact (Inv c0) (f c) (f' c)) :
    Exact (Inv c0) (SM.get >>= f) (SM.get >>= f') := fun c hc => hf c hc c hc

theorem authFailure_exact (p : Bytes) : Exact (Inv c0) (Verif.authFailure (α := α) p) (authFailure p) := by
  refine Exact.look fun c hc => ?_
  rw [errPacket_same _ hc.caps]
  exact Exact.refl _

variable (hk : ∀ c1 p c2, c1.rx <:+ c0.rx → Took c1 [0x01 :: p] c2 →
    Narrow.tryFromPem p = Verif.tryFromPem p ∧ ∀ k, Verif.tryFromPem p = .ok k → Spec.SmallKey k)
include hk

theorem fetchKey_exact : Exact (Inv c0) Verif.fetchKey fetchKey := by
  refine Exact.look fun c hc => ?_
  cases c.data.serverKey with
  | some k => exact Exact.refl _
  | none =>
    refine Exact.then (inv_writePacket _) fun _ => ?_
    intro c hc
    rcases h : readPacket c with ⟨o, c'⟩
    cases o with
    | ok p =>
      rw [SM.bind_of_ok h, SM.bind_of_ok h]
      have hc' := inv_readPacket c p c' hc h
      rw [SM.get_bind_apply, SM.get_bind_apply, errPacket_same _ hc'.caps]
      cases p with
      | nil => rfl
      | cons b r =>
        dsimp only
        split
        · rename_i hb
          subst hb
          rw [(hk c r c' hc.rx ((C76_packet _ _ _).1 h)).1]
        · rfl
    | err e => rw [SM.bind_of_err h, SM.bind_of_err h]
    | panic => rw [SM.bind_of_panic h, SM.bind_of_panic h]

/-- the key that is used is small. -/
theorem fetchKey_small {c c' : Conn} {k : PublicKey} (hc : Inv c0 c) (h : Verif.fetchKey c = (.ok k, c')) :
    Inv c0 c' ∧ Spec.SmallKey k := by
  unfold Verif.fetchKey at h
  rw [SM.get_bind_apply] at h
  cases hs : c.data.serverKey with
  | some k' =>
    rw [hs] at h
    cases h
    exact ⟨hc, hc.key _ hs⟩
  | none =>
    rw [hs] at h
    obtain ⟨_, c1, h1, h⟩ := SM.bind_eq_ok.1 h
    have hc1 := inv_writePacket _ c _ c1 hc h1
    obtain ⟨p, c2, h2, h⟩ := SM.bind_eq_ok.1 h
    have hc2 := inv_readPacket c1 p c2 hc1 h2
    rw [SM.get_bind_apply] at h
    cases p with
    | nil => cases h
    | cons b r =>
      dsimp only at h
      split at h
      · rename_i hb
        subst hb
        have hr := (hk c1 r c2 hc1.rx ((C76_packet _ _ _).1 h2)).2
        cases ht : Verif.tryFromPem r with
        | ok k' =>
          rw [ht] at h
          cases h
          exact ⟨⟨hc2.rx, fun k he => by cases he; exact hr _ ht, hc2.caps, hc2.limit⟩, hr _ ht⟩
        | err e => rw [ht] at h; cases h
        | panic => rw [ht] at h; cases h
      · split at h
        · obtain ⟨_, _, _, h⟩ := SM.bind_eq_ok.1 h
          cases h
        · cases h

variable (h : Hashes) (h1 : ∀ x, (h.sha1 x).length = 20) (seed : Bytes)
include h1

theorem sendPassword_exact : Exact (Inv c0) (Verif.sendPassword (.real h seed)) (sendPassword (crypto h seed)) := by
  refine Exact.look fun c hc => Exact.ite (Exact.refl _) ?_
  intro c hc
  have he := fetchKey_exact hk c hc
  rcases hf : Verif.fetchKey c with ⟨o, c'⟩
  rw [hf] at he
  cases o with
  | ok k =>
    rw [SM.bind_of_ok hf, SM.bind_of_ok he]
    have hs := (fetchKey_small hk hc hf).2
    have : ∀ x, (crypto h seed).rsa k x = (Crypto.real h seed).rsa k x := fun x => encryptPadded_same h h1 seed x k hs
    simp only [this]
  | err e => rw [SM.bind_of_err hf, SM.bind_of_err he]
  | panic => rw [SM.bind_of_panic hf, SM.bind_of_panic he]

omit hk h1 in
theorem readVerdict_exact : Exact (Inv c0) Verif.readVerdict readVerdict := by
  refine Exact.then inv_readPacket fun p => Exact.look fun c hc => ?_
  rw [errPacket_same _ hc.caps]
  exact Exact.refl _

omit h1 in
theorem inv_sendPassword (cr : Crypto) : Keeps (Inv c0) (Verif.sendPassword cr) := by
  refine Keeps.get.bind fun c => Keeps.ite (inv_writePacket _) ?_
  refine Keeps.bind (fun c k c' hc hf => (fetchKey_small hk hc hf).1) fun k => ?_
  exact Keeps.get.bind fun _ => (Keeps.ofOut _).bind fun _ => (Keeps.ofOut _).bind fun _ => inv_writePacket _

theorem continueAuth_exact : ∀ n, Exact (Inv c0) (Verif.continueAuth (.real h seed) n) (continueAuth (crypto h seed) n)
  | 0 => Exact.refl _
  | n + 1 => by
    unfold Verif.continueAuth continueAuth
    refine Exact.look fun c hc => Exact.then inv_readPacket fun p => Exact.look fun c' hc' => ?_
    cases p with
    | nil => exact authFailure_exact _
    | cons b r =>
      refine Exact.ite (Exact.refl _) (Exact.ite ?_ (Exact.ite ?_ (authFailure_exact _)))
      · cases r with
        | nil => exact Exact.refl _
        | cons s t =>
          refine Exact.ite (Exact.refl _) (Exact.ite ?_ (Exact.refl _))
          exact Exact.bind (sendPassword_exact hk h h1 seed) (inv_sendPassword hk _) fun _ => readVerdict_exact
      · refine Exact.then (Keeps.ofOut _) fun sw => ?_
        exact Exact.bind (m' := switchAuth (crypto h seed) sw) (Exact.refl (switchAuth (.real h seed) sw)) (inv_switch _ sw)
          fun _ => continueAuth_exact n

end

/-- a client never offers to take reports of progress. -/
theorem caps_offered (o : Options) (x : UInt32) : hasFlag32 (x &&& o.capabilities) Cap.PROGRESS_OBSOLETE = false := by
  unfold hasFlag32 Options.capabilities
  have : ∀ y : UInt32, y &&& Cap.PROGRESS_OBSOLETE = 0 → ((x &&& y) &&& Cap.PROGRESS_OBSOLETE) = 0 := by
    intro y hy
    rw [UInt32.and_assoc, hy, UInt32.and_zero]
  dsimp only
  split <;> (rw [this _ (by decide)]; decide)

section
variable {c0 : Conn} {α : Type}

theorem inv_failure (p : Bytes) : Keeps (Inv c0) (Verif.authFailure (α := α) p) := by
  refine Keeps.get.bind fun c => ?_
  cases runP (ErrPacket.deserialize c.data.capabilities) p with
  | ok e => exact Keeps.fail _
  | err e => exact Keeps.fail _
  | panic => exact Keeps.crash

theorem inv_verdict : Keeps (Inv c0) Verif.readVerdict := by
  refine inv_readPacket.bind fun p => Keeps.get.bind fun c => ?_
  cases p with
  | nil => exact Keeps.fail _
  | cons b r => exact Keeps.ite (Keeps.pure _) (Keeps.ite ((Keeps.ofOut _).bind fun _ => Keeps.fail _) (Keeps.fail _))

theorem inv_response (cr : Crypto) : Keeps (Inv c0) (doHandshakeResponse cr) :=
  Keeps.get.bind fun _ => (Keeps.ofOut _).bind fun _ => inv_writePacket _

theorem inv_auth (hk : ∀ c1 p c2, c1.rx <:+ c0.rx → Took c1 [0x01 :: p] c2 →
    Narrow.tryFromPem p = Verif.tryFromPem p ∧ ∀ k, Verif.tryFromPem p = .ok k → Spec.SmallKey k) (cr : Crypto) :
    ∀ n, Keeps (Inv c0) (Verif.continueAuth cr n)
  | 0 => Keeps.crash
  | n + 1 => by
    unfold Verif.continueAuth
    refine Keeps.get.bind fun c => inv_readPacket.bind fun p => Keeps.get.bind fun c' => ?_
    cases p with
    | nil => exact inv_failure _
    | cons b r =>
      refine Keeps.ite (Keeps.pure _) (Keeps.ite ?_ (Keeps.ite ?_ (inv_failure _)))
      · cases r with
        | nil => exact Keeps.fail _
        | cons s t =>
          exact Keeps.ite (inv_readPacket.bind fun _ => Keeps.pure _)
            (Keeps.ite ((inv_sendPassword hk _).bind fun _ => inv_verdict) (Keeps.fail _))
      · exact (Keeps.ofOut _).bind fun sw => (inv_switch _ sw).bind fun _ => inv_auth hk cr n

/-- behind the handshake. -/
theorem inv_handshake {alnum : Char → Bool} {c' : Conn} (hk : Spec.KeysRead c0) (hl : Spec.LimitFits c0)
    (h : handleHandshake alnum c0 = (.ok (), c')) : Inv c0 c' := by
  unfold handleHandshake at h
  obtain ⟨p, c1, h1, h⟩ := SM.bind_eq_ok.1 h
  have ho := readPacket_options c0
  rw [h1] at ho
  have ho : c1.options = c0.options := ho
  cases hd : runP Handshake.deserialize p with
  | ok hs =>
    rw [hd] at h
    dsimp only at h
    cases hv : parseServerVersion alnum hs.serverVersion with
    | ok v =>
      rw [hv] at h
      cases h
      refine ⟨Shrinks.readPacket c0 p c1 h1, fun k he => hk.configured k (ho ▸ he), caps_offered _ _, ?_⟩
      show (c1.options.maxAllowedPacket.getD DEFAULT_MAX_ALLOWED_PACKET) < 2 ^ 32
      rw [ho]
      cases hm : c0.options.maxAllowedPacket with
      | none => decide
      | some n => exact hl n hm
    | err e => rw [hv] at h; cases h
    | panic => rw [hv] at h; cases h
  | err e => rw [hd] at h; cases h
  | panic => rw [hd] at h; cases h

end

end Narrow

/-- **C105** (partial): logging in runs the same on both targets whatever the server sends — bytes sent, outcome, and what
is known about the connection — provided that the keys that may be used fit.  Whether keys do is the subject of
`C105_key_partial`; a key that does not makes a difference, see `C105_login_violated`. -/
theorem C105_login_partial (h : Hashes) (h1 : ∀ x, (h.sha1 x).length = 20) (seed : Bytes) (alnum : Char → Bool) (c : Conn)
    (hk : Spec.KeysRead c) (hl : Spec.LimitFits c) : Narrow.login (Narrow.crypto h seed) alnum c = login (.real h seed) alnum c := by
  unfold Narrow.login login
  rcases hh : handleHandshake alnum c with ⟨o, c'⟩
  cases o with
  | ok u =>
    rw [SM.bind_of_ok hh, SM.bind_of_ok hh]
    exact Narrow.Exact.bind (m' := doHandshakeResponse (Narrow.crypto h seed))
      (Narrow.Exact.refl (doHandshakeResponse (.real h seed))) (Narrow.inv_response _)
      (fun _ => Narrow.continueAuth_exact hk.sent h h1 seed 2) c' (Narrow.inv_handshake hk hl hh)
  | err e => rw [SM.bind_of_err hh, SM.bind_of_err hh]
  | panic => rw [SM.bind_of_panic hh, SM.bind_of_panic hh]

namespace Narrow

theorem inv_login {h : Hashes} {seed : Bytes} {alnum : Char → Bool} {c c' : Conn} (hk : Spec.KeysRead c)
    (hf : Spec.LimitFits c) (hl : Verif.login (.real h seed) alnum c = (.ok (), c')) : Inv c c' := by
  unfold Verif.login at hl
  obtain ⟨_, c1, e1, hl⟩ := SM.bind_eq_ok.1 hl
  obtain ⟨_, c2, e2, hl⟩ := SM.bind_eq_ok.1 hl
  exact inv_auth hk.sent _ 2 c2 _ c' (inv_response _ c1 _ c2 (inv_handshake hk hf e1) e2) hl

/-- the limit as a `usize` of this target. -/
def cut (c : Conn) : Conn := { c with data.maxAllowedPacket := c.data.maxAllowedPacket % 2 ^ 32 }

theorem cut_fits {c : Conn} (h : c.data.maxAllowedPacket < 2 ^ 32) : cut c = c := by
  unfold cut
  rw [Nat.mod_eq_of_lt h]

/-- the same outcome, and the same connection but for the limit. -/
def Settled (x x' : Out Error Unit × Conn) : Prop := x'.1 = x.1 ∧ x'.2 = cut x.2

theorem settled_same {x : Out Error Unit × Conn} (h : x.2.data.maxAllowedPacket < 2 ^ 32) : Settled x x :=
  ⟨rfl, (cut_fits h).symm⟩

theorem kept {α : Type} {m : M α} (hm : DataKept m) {c c' : Conn} {o : Out Error α} (e : m c = (o, c'))
    (h : c.data.maxAllowedPacket < 2 ^ 32) : c'.data.maxAllowedPacket < 2 ^ 32 := by
  have := congrArg Prod.snd (hm c)
  rw [e] at this
  have : c'.data = c.data := this
  rw [this]
  exact h

theorem store_settled (cols : List Column) (row : List Value) (c : Conn) (hl : c.data.maxAllowedPacket < 2 ^ 32) :
    Settled ((do let n ← SM.ofOut (Verif.limitOf cols row); storeLimit n : M Unit) c)
      ((do let n ← SM.ofOut (limitOf cols row); storeLimit n : M Unit) c) := by
  by_cases hn : ∃ n, Verif.limitOf cols row = .ok (some n)
  · obtain ⟨n, hn⟩ := hn
    rw [hn, (C105_limit cols row).1 n hn]
    exact ⟨rfl, rfl⟩
  · rw [(C105_limit cols row).2.2 hn]
    refine settled_same ?_
    cases hx : Verif.limitOf cols row with
    | ok x =>
      cases x with
      | none => exact hl
      | some n => exact absurd ⟨n, hx⟩ hn
    | err e => exact hl
    | panic => exact hl

theorem settings_ok {fp : FloatParse} {c c' : Conn} (hc : Tame c) (hl : c.data.maxAllowedPacket < 2 ^ 32)
    (hm : ∀ rs c2, Verif.query "select @@max_allowed_packet".toList c = (.ok rs, c2) → rs.columns.length ≤ columnLimit)
    (hs : Verif.readSettings fp c = (.ok (), c')) : Settled (.ok (), c') (readSettings fp c) := by
  unfold Verif.readSettings at hs
  unfold readSettings
  rw [SM.get_bind_apply] at hs ⊢
  split at hs
  · rename_i ho
    rw [if_pos ho]
    unfold Verif.askLimit at hs
    unfold askLimit
    obtain ⟨rs, c1, h1, hs⟩ := SM.bind_eq_ok.1 hs
    rcases query_alike _ c rs c1 hc h1 with he | ⟨hc1, rs', h1', hr⟩
    · exact absurd (show columnLimit < rs.columns.length from he) (by have := hm rs c1 h1; omega)
    rw [SM.bind_of_ok h1']
    obtain ⟨⟨rs2, row⟩, c2, h2, hs⟩ := SM.bind_eq_ok.1 hs
    rcases next_alike (textReader_alike fp mkPlain) hr c1 _ c2 hc1 h2 with he | ⟨_, ⟨rs2', row'⟩, h2', hp⟩
    · exact he.elim
    rw [SM.bind_of_ok h2']
    obtain ⟨hset, e⟩ : Spec.SetAlike rs2 rs2' ∧ row' = row := hp
    subst e
    cases row' with
    | none => cases hs; exact settled_same (kept (DataKept.next _ _) h2 (kept (DataKept.query _) h1 hl))
    | some row =>
      have := store_settled rs2.columns row c2 (kept (DataKept.next _ _) h2 (kept (DataKept.query _) h1 hl))
      rw [← hs]
      dsimp only
      rw [hset.columns]
      exact this
  · rename_i ho
    rw [if_neg ho]
    cases hs
    exact settled_same hl

theorem shrinks_read : Shrinks RSet.read := by
  have hcols : ∀ p : Bytes, Shrinks (do SM.modify fun c => { c with pendingResult := true }
                                        let n ← liftP (runP P.checkedEatLenencInt p)
                                        let cols ← Verif.readColumns n.toNat
                                        pure { columns := cols, okPacket := none } : M RSet) := by
    intro p
    refine (Shrinks.modify (by intro _; rfl)).bind fun _ => (Shrinks.ofOut _).bind fun n => ?_
    refine Shrinks.bind ?_ fun _ => Shrinks.pure _
    unfold Verif.readColumns
    split
    · exact Shrinks.crash
    · exact Shrinks.readColumnDefs _
  refine Shrinks.readPacket.bind fun p => Shrinks.get.bind fun c => ?_
  cases p with
  | nil => exact hcols _
  | cons b r =>
    dsimp only
    split
    · refine Shrinks.bind ?_ fun r => Shrinks.bind ?_ fun _ => Shrinks.pure _
      · refine Shrinks.get.bind fun c => ?_
        dsimp only
        repeat' split
        all_goals exact (Shrinks.ofOut _).bind fun _ => Shrinks.pure _
      · cases r with
        | ok _ => exact Shrinks.pure _
        | error _ => exact Shrinks.fail _
    · split
      · exact Shrinks.crash
      · split
        · exact (Shrinks.ofOut _).bind fun _ => Shrinks.fail _
        · exact hcols _

theorem settings_same {fp : FloatParse} {c : Conn} (hc : UsualStream c) (hl : c.data.maxAllowedPacket < 2 ^ 32) :
    Settled (Verif.readSettings fp c) (readSettings fp c) := by
  unfold Verif.readSettings readSettings
  rw [SM.get_bind_apply, SM.get_bind_apply]
  split
  · unfold Verif.askLimit askLimit
    have h1 := query_exact "select @@max_allowed_packet".toList c hc
    rcases e1 : Verif.query "select @@max_allowed_packet".toList c with ⟨o, c1⟩
    rw [e1] at h1
    have hl1 := kept (DataKept.query _) e1 hl
    cases o with
    | ok rs =>
      have hc1 : UsualStream c1 := by
        have hsh : Shrinks (Verif.query "select @@max_allowed_packet".toList) :=
          (shrinks_executeCommand _ _).bind fun _ => shrinks_read
        exact hsh.keeps c rs c1 hc e1
      rw [SM.bind_of_ok e1, SM.bind_of_ok h1]
      have h2 := next_exact (textReader_same fp mkPlain) rs c1 hc1
      rcases e2 : rs.next (Verif.textReader fp mkPlain) c1 with ⟨o, c2⟩
      rw [e2] at h2
      cases o with
      | ok x =>
        rw [SM.bind_of_ok e2, SM.bind_of_ok h2]
        obtain ⟨rs2, row⟩ := x
        cases row with
        | none => exact settled_same (kept (DataKept.next _ _) e2 hl1)
        | some row => exact store_settled rs2.columns row c2 (kept (DataKept.next _ _) e2 hl1)
      | err e => rw [SM.bind_of_err e2, SM.bind_of_err h2]; exact settled_same (kept (DataKept.next _ _) e2 hl1)
      | panic => rw [SM.bind_of_panic e2, SM.bind_of_panic h2]; exact settled_same (kept (DataKept.next _ _) e2 hl1)
    | err e => rw [SM.bind_of_err e1, SM.bind_of_err h1]; exact settled_same hl1
    | panic => rw [SM.bind_of_panic e1, SM.bind_of_panic h1]; exact settled_same hl1
  · exact settled_same hl

end Narrow

/-- **C105** (partial): a connection that is made on a target with 64 bits is made with 32 bits as well: the same bytes are
sent, and the connection is the same, but for a limit of the size of packets of 2^32 or more, which is cut.  Beside the keys,
the packets of the server must fit into the memory, and so must the columns of its answer to the question for the limit. -/
theorem C105_connect_partial (h : Hashes) (h1 : ∀ x, (h.sha1 x).length = 20) (seed : Bytes) (alnum : Char → Bool)
    (fp : FloatParse) (c c' : Conn) (hc : Tame c) (hk : Spec.KeysRead c) (hl : Spec.LimitFits c)
    (hm : ∀ c1 rs c2, login (.real h seed) alnum c = (.ok (), c1) →
      query "select @@max_allowed_packet".toList c1 = (.ok rs, c2) → rs.columns.length ≤ 41297762)
    (hok : connect (.real h seed) alnum fp c = (.ok (), c')) :
    Narrow.connect (Narrow.crypto h seed) alnum fp c =
      (.ok (), { c' with data.maxAllowedPacket := c'.data.maxAllowedPacket % 2 ^ 32 }) ∧
    (c'.data.maxAllowedPacket < 2 ^ 32 → Narrow.connect (Narrow.crypto h seed) alnum fp c = (.ok (), c')) := by
  have key : Narrow.connect (Narrow.crypto h seed) alnum fp c = (.ok (), Narrow.cut c') := by
    unfold connect at hok
    obtain ⟨_, c1, e1, e2⟩ := SM.bind_eq_ok.1 hok
    have e1' := C105_login_partial h h1 seed alnum c hk hl
    rw [e1] at e1'
    unfold Narrow.connect
    rw [SM.bind_of_ok e1']
    have hi := Narrow.inv_login hk hl e1
    have ht : Tame c1 := Narrow.Onward.later c c1 hi.rx hc
    have hs := Narrow.settings_ok (fp := fp) ht hi.limit (fun rs c2 hq => hm c1 rs c2 e1 hq) e2
    exact Prod.ext hs.1 hs.2
  exact ⟨key, fun hf => by rw [key, Narrow.cut_fits hf]⟩

/-- **C105** (partial): and when what the server sends behind the login contains nothing that looks like a length of 2^32 or
more, connecting runs the same on both targets also when it fails. -/
theorem C105_connect_same_partial (h : Hashes) (h1 : ∀ x, (h.sha1 x).length = 20) (seed : Bytes) (alnum : Char → Bool)
    (fp : FloatParse) (c : Conn) (hk : Spec.KeysRead c) (hl : Spec.LimitFits c)
    (hu : ∀ c1, login (.real h seed) alnum c = (.ok (), c1) → UsualStream c1) :
    (Narrow.connect (Narrow.crypto h seed) alnum fp c).1 = (connect (.real h seed) alnum fp c).1 ∧
    ((connect (.real h seed) alnum fp c).2.data.maxAllowedPacket < 2 ^ 32 →
      Narrow.connect (Narrow.crypto h seed) alnum fp c = connect (.real h seed) alnum fp c) := by
  have e1' := C105_login_partial h h1 seed alnum c hk hl
  unfold Narrow.connect connect
  rcases e1 : login (.real h seed) alnum c with ⟨o, c1⟩
  rw [e1] at e1'
  cases o with
  | ok u =>
    rw [SM.bind_of_ok e1, SM.bind_of_ok e1']
    obtain ⟨ho, hs⟩ := Narrow.settings_same (fp := fp) (hu c1 e1) (Narrow.inv_login hk hl e1).limit
    exact ⟨ho, fun hf => Prod.ext ho (hs.trans (Narrow.cut_fits hf))⟩
  | err e => rw [SM.bind_of_err e1, SM.bind_of_err e1']; exact ⟨rfl, fun _ => rfl⟩
  | panic => rw [SM.bind_of_panic e1, SM.bind_of_panic e1']; exact ⟨rfl, fun _ => rfl⟩

namespace Narrow

theorem length_frames (seq : UInt8) (p : Bytes) : p.length ≤ (Spec.frames seq p).length := by
  induction p using (measure List.length).wf.induction generalizing seq with
  | _ p ih =>
    rw [Spec.frames]
    split
    · simp only [List.length_append]
      omega
    · rename_i hl
      have := ih (p.drop Spec.maxFrame) (by
        show (p.drop Spec.maxFrame).length < p.length
        rw [List.length_drop]
        unfold Spec.maxFrame at *
        omega) (seq + 1)
      have h2 : p.length = (p.take Spec.maxFrame).length + (p.drop Spec.maxFrame).length := by
        rw [← List.length_append, List.take_append_drop]
      simp only [List.length_append]
      omega

/-- where this packet is in the stream. -/
theorem took_short {c0 c1 c2 : Conn} {p bs : Bytes} (hb : c0.rx = rxOf bs) (hl : bs.length < 2 ^ 24 - 1)
    (hs : c1.rx <:+ c0.rx) (ht : Took c1 [p] c2) :
    ∃ i, i < bs.length ∧ ∃ s rest, bs.drop i = Spec.le 3 p.length ++ [s] ++ p ++ rest := by
  obtain ⟨rest, e, _⟩ := ht
  obtain ⟨pre, hp⟩ := hs
  rw [hb, e] at hp
  have h1 : Spec.framesAll c1.seqId [p] = Spec.frames c1.seqId p := by
    show Spec.frames c1.seqId p ++ [] = _
    exact List.append_nil _
  rw [h1] at hp
  have hlen := congrArg List.length hp
  simp only [rxOf, List.length_append, List.length_map] at hlen
  have hf := length_frames c1.seqId p
  have hsh : Spec.frames c1.seqId p = Spec.le 3 p.length ++ [c1.seqId] ++ p := by
    rw [Spec.frames, if_pos (by unfold Spec.maxFrame; omega)]
  have hd : bs.drop pre.length = Spec.frames c1.seqId p ++ bs.drop (pre.length + (Spec.frames c1.seqId p).length) := by
    have h3 : (rxOf bs).drop pre.length = (Spec.frames c1.seqId p).map Rx.byte ++ rest := by
      rw [← hp, List.drop_left]
    have h4 : bs.drop pre.length = ((bs.drop pre.length).take (Spec.frames c1.seqId p).length) ++
        bs.drop (pre.length + (Spec.frames c1.seqId p).length) := by
      rw [← List.drop_drop, List.take_append_drop]
    rw [h4]
    congr 1
    have h5 := congrArg (List.take (Spec.frames c1.seqId p).length) h3
    rw [List.take_append_of_le_length (by simp), rxOf, ← List.map_drop, ← List.map_take,
      List.take_of_length_le (l := (Spec.frames c1.seqId p).map Rx.byte) (by simp)] at h5
    have hi : Function.Injective Rx.byte := fun a b h => by injection h
    exact List.map_injective_iff.2 hi h5
  rw [hsh] at hd
  refine ⟨pre.length, ?_, c1.seqId, _, hd⟩
  rw [hsh] at hlen
  simp only [List.length_append, List.length_cons, List.length_nil] at hlen
  omega

/-- looking for keys in a stream, at every position. -/
def keysCheck (bs : Bytes) : Bool := (List.range bs.length).all fun i =>
  match bs.drop i with
  | a :: b :: c :: _ :: 1 :: r =>
    let p := r.take (leNat [a, b, c] - 1)
    match Verif.tryFromPem p with
    | .ok k => decide (tryFromPem p = .ok k ∧ Spec.bitLength k.modulus < 2 ^ 32 - 6)
    | x => decide (tryFromPem p = x)
  | _ => true

theorem keysCheck_fit {c : Conn} {bs : Bytes} (hb : c.rx = rxOf bs) (hl : bs.length < 2 ^ 24 - 1)
    (hc : ∀ k, c.options.serverKey = some k → Spec.SmallKey k) (h : keysCheck bs = true) : Spec.KeysRead c := by
  refine ⟨hc, fun c1 p c2 hs ht => ?_⟩
  obtain ⟨i, hi, s, rest, e⟩ := took_short hb hl hs ht
  have hp : (1 :: p).length < 2 ^ 24 := by
    have := congrArg List.length e
    simp only [List.length_append, List.length_drop] at this
    omega
  have h := List.all_eq_true.1 h i (List.mem_range.2 hi)
  rw [e] at h
  have h3 : ∀ n, n < 2 ^ 24 → Spec.le 3 n = [UInt8.ofNat (n % 256), UInt8.ofNat (n / 256 % 256), UInt8.ofNat (n / 65536 % 256)] := by
    intro n _
    simp [Spec.le, List.range_succ]
  have h4 : leNat [UInt8.ofNat ((1 :: p).length % 256), UInt8.ofNat ((1 :: p).length / 256 % 256),
      UInt8.ofNat ((1 :: p).length / 65536 % 256)] - 1 = p.length := by
    rw [List.length_cons] at hp ⊢
    simp only [leNat, UInt8.toNat_ofNat']
    omega
  rw [h3 _ hp] at h
  simp only [List.cons_append, List.nil_append] at h
  rw [h4, List.take_left] at h
  cases ht : Verif.tryFromPem p with
  | ok k =>
    rw [ht] at h
    obtain ⟨h5, h6⟩ := of_decide_eq_true h
    refine ⟨h5, fun k' hk => ?_⟩
    cases hk
    exact h6
  | err e =>
    rw [ht] at h
    exact ⟨of_decide_eq_true h, fun _ h => by cases h⟩
  | panic =>
    rw [ht] at h
    exact ⟨of_decide_eq_true h, fun _ h => by cases h⟩

end Narrow

/-- **C105**: every stream that is shorter than 2^32 bytes has only packets that fit. -/
theorem C105_tame (c : Conn) (h : c.rx.length < 2 ^ 32) : Tame c := by
  intro c1 p c2 hs ht
  obtain ⟨rest, e, _⟩ := ht
  have h1 := hs.length_le
  have h2 := Narrow.length_frames c1.seqId p
  rw [e] at h1
  simp only [List.length_append, List.length_map, Spec.framesAll, List.length_nil] at h1
  show p.length < 2 ^ 32
  omega

namespace C105ex

/-- a greeting that asks for the plugin with encryption. -/
def hello : Bytes :=
  [10] ++ ascii "8.0.1" ++ [0] ++ [1, 0, 0, 0] ++ [1, 2, 3, 4, 5, 6, 7, 8] ++ [0] ++
  [0x00, 0x82] ++ [45] ++ [2, 0] ++ [0x08, 0x00] ++ [21] ++ List.replicate 10 0 ++
  [9, 10, 11, 12, 13, 14, 15, 16, 17, 18, 19, 20, 0] ++ ascii "caching_sha2_password" ++ [0]

/-- the key 2^511 + 111, 3; and the same with the length of the sequence in five bytes. -/
def pem : Bytes := Spec.text "-----BEGIN RSA PUBLIC KEY-----\nMEYCQQCAAAAAAAAAAAAAAAAAAAAAAAAAAAAAAAAAAAAAAAAAAAAAAAAAAAAAAAAAAAAAAAAAAAAAAAAAAAAAAAAAAABvAgED\n-----END RSA PUBLIC KEY-----\n"
def pemLong : Bytes := Spec.text "-----BEGIN RSA PUBLIC KEY-----\nMIUAAAAARgJBAIAAAAAAAAAAAAAAAAAAAAAAAAAAAAAAAAAAAAAAAAAAAAAAAAAAAAAAAAAAAAAAAAAAAAAAAAAAAAAAAAAAAG8CAQM=\n-----END RSA PUBLIC KEY-----\n"

/-- the answer to the question for the limit. -/
def limit (n : Nat) : List Bytes := Spec.resultSet
  [{ db := [], table := [], orgTable := [], name := "@@max_allowed_packet".toList, orgName := [], charset := 63, length := 21,
     code := 8, flags := 160, decimals := 0 }] [Spec.lenencStr (Spec.dec n)] 2 0

/-- the server asks for the password, sends a key, accepts, and tells the limit. -/
def start (key : Bytes) (n : Nat) : Conn :=
  Conn.initial { C28.opts with maxAllowedPacket := none }
    (rxOf (Spec.frames 0 hello ++ Spec.frames 2 [1, 4] ++ Spec.frames 4 (1 :: key) ++ Spec.frames 6 [0, 0, 0, 2, 0, 0, 0] ++
      Spec.framesAll 1 (limit n))) []

end C105ex

open C105ex in
/-- **C105** is false of servers that send a key with a length of five bytes: the login succeeds with 64 bits, and fails
with 32, because the key is refused there. -/
theorem C105_login_violated :
    (login (.real C33.toyHashes C33.seed) C28.asciiAlnum (start pemLong 67108864)).1 = .ok () ∧
    (Narrow.login (Narrow.crypto C33.toyHashes C33.seed) C28.asciiAlnum (start pemLong 67108864)).1 =
      .err (.protocol (.serialize (.encryption .invalidPem))) := by
  decide +kernel

open C105ex in
/-- the keys fit if the server sends the key as usual, and its packets do. -/
example (n : Nat) (hn : n = 67108864) : Spec.KeysRead (start pem n) ∧ Tame (start pem n) := by
  subst hn
  exact ⟨Narrow.keysCheck_fit rfl (by decide +kernel) (fun _ h => by cases h) (by decide +kernel), C105_tame _ (by decide +kernel)⟩

open C105ex in
/-- with the key encoded as usual it succeeds on both, with the same bytes sent, the password encrypted in 64 of them; a
limit of 2^32 + 1 is taken for 1. -/
example :
    let wide := connect (.real C33.toyHashes C33.seed) C28.asciiAlnum fp (start pem 67108864)
    let narrow := Narrow.connect (Narrow.crypto C33.toyHashes C33.seed) C28.asciiAlnum fp (start pem 67108864)
    wide.1 = .ok () ∧ narrow.1 = .ok () ∧ narrow.2.tx = wide.2.tx ∧
    (wide.2.tx.drop (wide.2.tx.length - 100)).take 4 = [64, 0, 0, 5] ∧
    wide.2.data.maxAllowedPacket = 67108864 ∧ narrow.2.data.maxAllowedPacket = 67108864 ∧
    (Narrow.connect (Narrow.crypto C33.toyHashes C33.seed) C28.asciiAlnum fp (start pem 4294967297)).2.data.maxAllowedPacket = 1 ∧
    (connect (.real C33.toyHashes C33.seed) C28.asciiAlnum fp (start pem 4294967297)).2.data.maxAllowedPacket = 4294967297 := by
  decide +kernel

end Verif

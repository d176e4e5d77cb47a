import Verif.Model.Auth

/-!
# Runs that differ only in the password

`Sim o p₁ p₂ m` says that `m` behaves identically on two connections that differ only in the
password in their options (the options being `o` with password `p₁` and `p₂`).
-/

namespace Verif

/-- the same connection with options `o` and another password. -/
def SameBut (o : Options) (p₁ p₂ : Str) (c₁ c₂ : Conn) : Prop :=
  c₁.options = { o with password := p₁ } ∧ c₂ = { c₁ with options := { o with password := p₂ } }

def Sim {α : Type} (o : Options) (p₁ p₂ : Str) (m : M α) : Prop :=
  ∀ c₁ c₂, SameBut o p₁ p₂ c₁ c₂ → (m c₁).1 = (m c₂).1 ∧ SameBut o p₁ p₂ (m c₁).2 (m c₂).2

namespace Sim

variable {α β : Type} {o : Options} {p₁ p₂ : Str}

theorem pure (a : α) : Sim o p₁ p₂ (Pure.pure a : M α) := fun _ _ h => ⟨rfl, h⟩
theorem fail (e : Error) : Sim o p₁ p₂ (SM.fail e : M α) := fun _ _ h => ⟨rfl, h⟩
theorem crash : Sim o p₁ p₂ (SM.crash : M α) := fun _ _ h => ⟨rfl, h⟩
theorem ofOut (x : Out Error α) : Sim o p₁ p₂ (SM.ofOut x : M α) := fun _ _ h => ⟨rfl, h⟩
theorem liftP (x : Out ProtocolError α) : Sim o p₁ p₂ (Verif.liftP x) := ofOut _
theorem liftParse (x : Out ParseError α) : Sim o p₁ p₂ (Verif.liftParse x) := ofOut _

theorem bind {m : M α} {f : α → M β} (hm : Sim o p₁ p₂ m) (hf : ∀ a, Sim o p₁ p₂ (f a)) :
    Sim o p₁ p₂ (m >>= f) := by
  intro c₁ c₂ h
  obtain ⟨h1, h2⟩ := hm c₁ c₂ h
  rw [SM.bind_apply, SM.bind_apply]
  match e1 : m c₁, e2 : m c₂ with
  | (.ok a, s), (x, t) =>
    rw [e1, e2] at h1 h2
    subst h1
    exact hf a s t h2
  | (.err a, s), (x, t) =>
    rw [e1, e2] at h1 h2
    subst h1
    exact ⟨rfl, h2⟩
  | (.panic, s), (x, t) =>
    rw [e1, e2] at h1 h2
    subst h1
    exact ⟨rfl, h2⟩

theorem get_bind {f : Conn → M β}
    (hf : ∀ c₁ c₂, SameBut o p₁ p₂ c₁ c₂ →
      (f c₁ c₁).1 = (f c₂ c₂).1 ∧ SameBut o p₁ p₂ (f c₁ c₁).2 (f c₂ c₂).2) :
    Sim o p₁ p₂ (SM.get >>= f) := fun c₁ c₂ h => hf c₁ c₂ h

/-- the continuation only looks at parts of the state that do not contain the password. -/
theorem get_bind' {f : Conn → M β}
    (hf : ∀ c₁, Sim o p₁ p₂ (f c₁))
    (he : ∀ c₁ c₂, SameBut o p₁ p₂ c₁ c₂ → f c₂ = f c₁) :
    Sim o p₁ p₂ (SM.get >>= f) := fun c₁ c₂ h => by
  show (f c₁ c₁).1 = (f c₂ c₂).1 ∧ SameBut o p₁ p₂ (f c₁ c₁).2 (f c₂ c₂).2
  rw [he c₁ c₂ h]
  exact hf c₁ c₁ c₂ h

theorem modify {g : Conn → Conn}
    (hg : ∀ c₁ c₂, SameBut o p₁ p₂ c₁ c₂ → SameBut o p₁ p₂ (g c₁) (g c₂)) :
    Sim o p₁ p₂ (SM.modify g : M Unit) := fun c₁ c₂ h => ⟨rfl, hg c₁ c₂ h⟩

theorem ite {p : Prop} [Decidable p] {a b : M α} (ha : Sim o p₁ p₂ a) (hb : Sim o p₁ p₂ b) :
    Sim o p₁ p₂ (if p then a else b) := by
  split <;> assumption

theorem readExact (n : Nat) : Sim o p₁ p₂ (Verif.readExact n) := by
  rintro c₁ c₂ ⟨h1, rfl⟩
  exact ⟨rfl, h1, rfl⟩

theorem writeRaw (bs : Bytes) : Sim o p₁ p₂ (Verif.writeRaw bs) := by
  rintro c₁ c₂ ⟨h1, rfl⟩
  unfold Verif.writeRaw
  match c₁.wfaults with
  | [] => exact ⟨rfl, h1, rfl⟩
  | none :: f => exact ⟨rfl, h1, rfl⟩
  | some (k, e) :: f => exact ⟨rfl, h1, rfl⟩

theorem readChunk (dst : Bytes) : Sim o p₁ p₂ (Verif.readChunk dst) := by
  unfold Verif.readChunk
  refine bind (readExact 4) fun md => ?_
  split
  · refine ite (pure _) (bind (readExact _) fun ch => ?_)
    exact ite (pure _) (pure _)
  · exact crash

theorem bumpSeq : Sim o p₁ p₂ (SM.modify fun c => { c with seqId := c.seqId + 1 } : M Unit) := by
  refine modify ?_
  rintro c₁ c₂ ⟨h1, rfl⟩
  exact ⟨h1, rfl⟩

theorem readPacketLoop (fuel : Nat) (dst : Bytes) : Sim o p₁ p₂ (Verif.readPacketLoop fuel dst) := by
  induction fuel generalizing dst with
  | zero => exact crash
  | succ n ih =>
    unfold Verif.readPacketLoop
    refine bind (readChunk dst) fun x => ?_
    obtain ⟨sq, last, d⟩ := x
    dsimp only
    refine get_bind' (fun c => ?_) ?_
    · split
      · exact fail _
      · refine bind bumpSeq fun _ => ?_
        split
        · exact pure _
        · exact ih d
    · rintro c₁ c₂ ⟨h1, rfl⟩
      rfl

theorem readPacket : Sim o p₁ p₂ Verif.readPacket := by
  intro c₁ c₂ h
  have : c₂.rx = c₁.rx := by rw [h.2]
  unfold Verif.readPacket
  rw [this]
  exact readPacketLoop _ _ c₁ c₂ h

theorem writeChunks (bs : Bytes) : Sim o p₁ p₂ (Verif.writeChunks bs) := by
  rw [Verif.writeChunks.eq_def]
  split
  · exact pure _
  · dsimp only
    refine get_bind' (fun c => ?_) ?_
    · refine bind (writeRaw _) fun _ => bind (writeRaw _) fun _ => bind bumpSeq fun _ => ?_
      exact writeChunks _
    · rintro c₁ c₂ ⟨h1, rfl⟩
      rfl
termination_by bs.length
decreasing_by
  have : 0 < bs.length := List.length_pos_iff.mpr (by assumption)
  simp only [List.length_drop, MAX_PAYLOAD_LEN]
  omega

theorem writePacket (bs : Bytes) : Sim o p₁ p₂ (Verif.writePacket bs) := by
  unfold Verif.writePacket
  refine bind (writeChunks bs) fun _ => ?_
  split
  · refine get_bind' (fun c => bind (writeRaw _) fun _ => bumpSeq) ?_
    rintro c₁ c₂ ⟨h1, rfl⟩
    rfl
  · exact pure _

theorem decodeResponse (pk : Bytes) : Sim o p₁ p₂ (Verif.decodeResponse pk) := by
  unfold Verif.decodeResponse
  refine get_bind' (fun c => ?_) ?_
  · split
    · exact fail _
    · split
      · exact bind (liftP _) fun _ => pure _
      · split
        · exact bind (liftP _) fun _ => pure _
        · exact fail _
  · rintro c₁ c₂ ⟨h1, rfl⟩
    rfl

theorem okOrServerError (r : Except ErrPacket OkPacket) : Sim o p₁ p₂ (Verif.okOrServerError r) := by
  cases r
  · exact fail _
  · exact pure _

theorem clearPending :
    Sim o p₁ p₂ (SM.modify fun c => { c with pendingResult := false } : M Unit) := by
  refine modify ?_
  rintro c₁ c₂ ⟨h1, rfl⟩
  exact ⟨h1, rfl⟩

theorem setPending :
    Sim o p₁ p₂ (SM.modify fun c => { c with pendingResult := true } : M Unit) := by
  refine modify ?_
  rintro c₁ c₂ ⟨h1, rfl⟩
  exact ⟨h1, rfl⟩

theorem zeroSeq : Sim o p₁ p₂ (SM.modify fun c => { c with seqId := 0 } : M Unit) := by
  refine modify ?_
  rintro c₁ c₂ ⟨h1, rfl⟩
  exact ⟨h1, rfl⟩

theorem cleanupLoop (fuel : Nat) : Sim o p₁ p₂ (Verif.cleanupLoop fuel) := by
  induction fuel with
  | zero => exact crash
  | succ n ih =>
    unfold Verif.cleanupLoop
    refine bind readPacket fun pk => get_bind' (fun c => bind (ofOut _) fun last => ?_) ?_
    · split
      · exact bind clearPending fun _ => liftP _
      · exact ih
    · rintro c₁ c₂ ⟨h1, rfl⟩
      rfl

theorem cleanup : Sim o p₁ p₂ Verif.cleanup := by
  intro c₁ c₂ h
  have h1 : c₂.rx = c₁.rx := by rw [h.2]
  have h2 : c₂.pendingResult = c₁.pendingResult := by rw [h.2]
  unfold Verif.cleanup
  rw [h1, h2]
  split
  · exact bind (cleanupLoop _) (fun _ => pure _) c₁ c₂ h
  · exact ⟨rfl, h⟩

theorem executeCommand (cmd : Command) (d : Bytes) : Sim o p₁ p₂ (Verif.executeCommand cmd d) := by
  unfold Verif.executeCommand
  exact bind cleanup fun _ => bind zeroSeq fun _ => writePacket _

theorem readColumnDefs (n : Nat) : Sim o p₁ p₂ (Verif.readColumnDefs n) := by
  induction n with
  | zero => exact pure _
  | succ n ih =>
    unfold Verif.readColumnDefs
    exact bind readPacket fun _ => bind (liftP _) fun _ => bind ih fun _ => pure _

theorem readColumns (n : Nat) : Sim o p₁ p₂ (Verif.readColumns n) := by
  unfold Verif.readColumns
  split
  · exact crash
  · exact readColumnDefs n

theorem rsetRead : Sim o p₁ p₂ RSet.read := by
  unfold RSet.read
  refine bind readPacket fun pk => get_bind' (fun c => ?_) ?_
  · split
    · split
      · exact bind (decodeResponse _) fun _ => bind (okOrServerError _) fun _ => pure _
      · split
        · exact crash
        · split
          · exact bind (liftP _) fun _ => fail _
          · exact bind setPending fun _ => bind (liftP _) fun _ => bind (readColumns _) fun _ =>
              pure _
    · exact bind setPending fun _ => bind (liftP _) fun _ => bind (readColumns _) fun _ => pure _
  · rintro c₁ c₂ ⟨h1, rfl⟩
    rfl

theorem rsetNext {R : Type} (rd : RowReader R) (rs : RSet) : Sim o p₁ p₂ (RSet.next rd rs) := by
  unfold RSet.next
  split
  · exact pure _
  · refine bind readPacket fun pk => get_bind' (fun c => bind (ofOut _) fun last => ?_) ?_
    · split
      · exact bind (liftP _) fun _ => bind clearPending fun _ => pure _
      · exact bind (liftP _) fun _ => bind (liftParse _) fun _ => pure _
    · rintro c₁ c₂ ⟨h1, rfl⟩
      rfl

theorem query (sql : Str) : Sim o p₁ p₂ (Verif.query sql) :=
  bind (executeCommand _ _) fun _ => rsetRead

theorem readSettings (fp : FloatParse) : Sim o p₁ p₂ (Verif.readSettings fp) := by
  unfold Verif.readSettings
  refine get_bind' (fun c => ?_) ?_
  · split
    · unfold Verif.askLimit
      refine bind (query _) fun rs => bind (rsetNext _ rs) fun x => ?_
      obtain ⟨rs', row⟩ := x
      dsimp only
      cases row with
      | none => exact pure _
      | some row =>
        refine bind (ofOut _) fun n => ?_
        cases n with
        | none => exact pure _
        | some n =>
          refine modify ?_
          rintro c₁ c₂ ⟨h1, rfl⟩
          exact ⟨h1, rfl⟩
    · exact pure _
  · rintro c₁ c₂ ⟨h1, rfl⟩
    rw [h1]

theorem authFailure (pk : Bytes) : Sim o p₁ p₂ (Verif.authFailure (α := α) pk) := by
  unfold Verif.authFailure
  refine get_bind' (fun c => ?_) ?_
  · split
    · exact fail _
    · exact fail _
    · exact crash
  · rintro c₁ c₂ ⟨h1, rfl⟩
    rfl

theorem handleHandshake (alnum : Char → Bool) : Sim o p₁ p₂ (Verif.handleHandshake alnum) := by
  unfold Verif.handleHandshake
  refine bind readPacket fun pk => ?_
  split
  · split
    · refine modify ?_
      rintro c₁ c₂ ⟨h1, rfl⟩
      refine ⟨h1, ?_⟩
      simp only [h1]
      rfl
    · exact crash
  · exact crash

theorem fetchKey : Sim o p₁ p₂ Verif.fetchKey := by
  unfold Verif.fetchKey
  refine get_bind' (fun c => ?_) ?_
  · split
    · exact pure _
    · refine bind (writePacket _) fun _ => bind readPacket fun pk => get_bind' (fun c => ?_) ?_
      · split
        · exact fail _
        · split
          · refine bind (ofOut _) fun k => bind (modify ?_) fun _ => pure _
            rintro c₁ c₂ ⟨h1, rfl⟩
            exact ⟨h1, rfl⟩
          · split
            · exact bind (liftP _) fun _ => fail _
            · exact fail _
      · rintro c₁ c₂ ⟨h1, rfl⟩
        rfl
  · rintro c₁ c₂ ⟨h1, rfl⟩
    rfl

end Sim
end Verif

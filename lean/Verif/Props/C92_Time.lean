import Verif.Props.C91_Dropped

/-!
# C92: how long a call takes

The options have a `timeout`, `T` below.  The property: a call is told within a time that depends on `T` alone whether it
succeeds.
-/

namespace Verif

open Spec

/-! ### Spec -/

/-- Polls as an executor makes them: an operation is polled again at once after an answer, and `g` after it has become
ready at the latest; `w` tells whether the last answer was "not ready". -/
def Brisk (g : Nat) : Bool → List Poll → Prop
  | _, [] => True
  | w, p :: es => p.after ≤ (if w then g else 0) ∧ Brisk g (p.ans == .notReady) es

/-- the server sends nothing. -/
def Silent (es : List Poll) : Prop := ∀ p ∈ es, ∀ bs, p.ans ≠ .bytes bs

/-- the time that passes during polls. -/
def span (es : List Poll) : Nat := (es.map Poll.after).sum

/-! ### operations -/

theorem pollRead_time (T g : Nat) (es : List Poll) (n e : Nat) (w : Bool) (hb : Brisk g w es)
    (he : w = true → e < T ∨ e = 0) (h : e ≤ T + g) :
    (pollRead T es n e).2.2 ≤ T + g ∧ ∀ r rest, (pollRead T es n e).1 = .done r rest → ∃ w', Brisk g w' rest := by
  induction es generalizing n e w with
  | nil =>
    unfold pollRead
    split
    · exact ⟨h, fun r rest h => by cases h; exact ⟨w, hb⟩⟩
    · exact ⟨h, fun r rest h => by cases h⟩
  | cons p es ih =>
    obtain ⟨h1, h2⟩ := hb
    have h3 : e + p.after ≤ T + g := by
      cases w with
      | true => have := he rfl; simp only [if_true] at h1; omega
      | false => simp only [Bool.false_eq_true, if_false] at h1; omega
    unfold pollRead
    split
    · exact ⟨h, fun r rest h => by cases h; exact ⟨w, h1, h2⟩⟩
    · split
      · rename_i bs hp
        split
        · exact ⟨h3, fun r rest h => by cases h; exact ⟨_, h2⟩⟩
        · obtain ⟨i1, i2⟩ := ih (n - (bs.take n).length) (e + p.after) _ h2 (by simp [hp]) h3
          split
          · rename_i r rest tape t hx
            rw [hx] at i1 i2
            exact ⟨i1, fun r' rest' h => by cases h; exact i2 _ _ rfl⟩
          · rename_i heq
            rw [heq] at i1 i2
            exact ⟨i1, i2⟩
      · exact ⟨h3, fun r rest h => by cases h; exact ⟨_, h2⟩⟩
      · exact ⟨h3, fun r rest h => by cases h; exact ⟨_, h2⟩⟩
      · split
        · exact ⟨h3, fun r rest h => by cases h; exact ⟨_, h2⟩⟩
        · exact ih n _ _ h2 (fun _ => by omega) h3
      · split
        · exact ⟨h3, fun r rest h => by cases h; exact ⟨_, h2⟩⟩
        · exact ih n _ _ h2 (fun _ => by omega) h3

theorem pollWrite_time (T g : Nat) (es : List Poll) (bs : Bytes) (e : Nat) (w : Bool) (hb : Brisk g w es)
    (he : w = true → e < T ∨ e = 0) (h : e ≤ T + g) :
    (pollWrite T es bs e).2.2 ≤ T + g ∧ ∀ r rest, (pollWrite T es bs e).1 = .done r rest → ∃ w', Brisk g w' rest := by
  induction es generalizing bs e w with
  | nil =>
    unfold pollWrite
    split
    · exact ⟨h, fun r rest h => by cases h; exact ⟨w, hb⟩⟩
    · exact ⟨h, fun r rest h => by cases h⟩
  | cons p es ih =>
    obtain ⟨h1, h2⟩ := hb
    have h3 : e + p.after ≤ T + g := by
      cases w with
      | true => have := he rfl; simp only [if_true] at h1; omega
      | false => simp only [Bool.false_eq_true, if_false] at h1; omega
    unfold pollWrite
    split
    · exact ⟨h, fun r rest h => by cases h; exact ⟨w, h1, h2⟩⟩
    · split
      · rename_i k hp
        split
        · exact ⟨h3, fun r rest h => by cases h; exact ⟨_, h2⟩⟩
        · obtain ⟨i1, i2⟩ := ih (bs.drop k) (e + p.after) _ h2 (by simp [hp]) h3
          exact ⟨i1, i2⟩
      · exact ⟨h3, fun r rest h => by cases h; exact ⟨_, h2⟩⟩
      · exact ⟨h3, fun r rest h => by cases h; exact ⟨_, h2⟩⟩
      · split
        · exact ⟨h3, fun r rest h => by cases h; exact ⟨_, h2⟩⟩
        · exact ih bs _ _ h2 (fun _ => by omega) h3
      · split
        · exact ⟨h3, fun r rest h => by cases h; exact ⟨_, h2⟩⟩
        · exact ih bs _ _ h2 (fun _ => by omega) h3

/-! ### calls -/

/-- **C92**, as a bound on operations: each of them ends within `T + g`, so a call that has begun so many of them (reads
of a header or of what follows it, writes likewise) has taken so many times `T + g` at most, whether it has ended or is
suspended.  Missing: a bound on the number of operations, which is up to the server (`C92_endless_violated`). -/
theorem C92_operations_partial {α : Type} (p : Code α) {T g : Nat} {l : Loc} {es : List Poll} {d : Did} {r : Ran α}
    {w : Bool} (hx : Exec T p l es d r) (hb : Brisk g w es) : d.time ≤ d.ops * (T + g) := by
  have key : ∀ {α : Type} (p : Code α) {l : Loc} {es : List Poll} {d : Did} {r : Ran α} {w : Bool}, Exec T p l es d r →
      Brisk g w es → d.time ≤ d.ops * (T + g) ∧ ∀ o l' rest, r = .done o l' rest → ∃ w', Brisk g w' rest := by
    intro α p
    induction p with
    | out o =>
      rintro l es d r w ⟨rfl, rfl⟩ hb
      exact ⟨by simp [Did.none], fun o l' rest h => by cases h; exact ⟨_, hb⟩⟩
    | get =>
      rintro l es d r w ⟨rfl, rfl⟩ hb
      exact ⟨by simp [Did.none], fun o l' rest h => by cases h; exact ⟨_, hb⟩⟩
    | modify f =>
      rintro l es d r w ⟨rfl, rfl⟩ hb
      exact ⟨by simp [Did.none], fun o l' rest h => by cases h; exact ⟨_, hb⟩⟩
    | read n =>
      intro l es d r w hx hb
      obtain ⟨h1, h2⟩ := pollRead_time T g es n 0 w hb (fun _ => Or.inr rfl) (by omega)
      cases hx with
      | done h => rw [h] at h1 h2; exact ⟨by simpa using h1, fun o l' rest h => by cases h; exact h2 _ _ rfl⟩
      | wait h => rw [h] at h1; exact ⟨by simpa using h1, fun o l' rest h => by cases h⟩
    | write bs =>
      intro l es d r w hx hb
      obtain ⟨h1, h2⟩ := pollWrite_time T g es bs 0 w hb (fun _ => Or.inr rfl) (by omega)
      cases hx with
      | done h => rw [h] at h1 h2; exact ⟨by simpa using h1, fun o l' rest h => by cases h; exact h2 _ _ rfl⟩
      | wait h => rw [h] at h1; exact ⟨by simpa using h1, fun o l' rest h => by cases h⟩
    | bind m k ihm ihk =>
      intro l es d r w hx hb
      cases hx with
      | ok a b =>
        obtain ⟨h1, h2⟩ := ihm a hb
        obtain ⟨w', h2⟩ := h2 _ _ _ rfl
        obtain ⟨h3, h4⟩ := ihk _ b h2
        exact ⟨by simp only [Did.and, Nat.add_mul]; omega, h4⟩
      | err a => obtain ⟨h1, h2⟩ := ihm a hb; exact ⟨h1, fun o l' rest h => by cases h; exact h2 _ _ _ rfl⟩
      | panic a => obtain ⟨h1, h2⟩ := ihm a hb; exact ⟨h1, fun o l' rest h => by cases h; exact h2 _ _ _ rfl⟩
      | wait a => obtain ⟨h1, h2⟩ := ihm a hb; exact ⟨h1, fun o l' rest h => by cases h⟩
    | attempt m ih =>
      intro l es d r w hx hb
      cases hx with
      | ok a => obtain ⟨h1, h2⟩ := ih a hb; exact ⟨h1, fun o l' rest h => by cases h; exact h2 _ _ _ rfl⟩
      | err a => obtain ⟨h1, h2⟩ := ih a hb; exact ⟨h1, fun o l' rest h => by cases h; exact h2 _ _ _ rfl⟩
      | panic a => obtain ⟨h1, h2⟩ := ih a hb; exact ⟨h1, fun o l' rest h => by cases h; exact h2 _ _ _ rfl⟩
      | wait a => obtain ⟨h1, h2⟩ := ih a hb; exact ⟨h1, fun o l' rest h => by cases h⟩
    | loop body s ih =>
      intro l es d r w hx hb
      have hx : Act.Loop (fun s => Exec T (body s)) s l es d r := hx
      induction hx generalizing w with
      | again a _ i =>
        obtain ⟨h1, h2⟩ := ih _ a hb
        obtain ⟨w', h2⟩ := h2 _ _ _ rfl
        obtain ⟨h3, h4⟩ := i ‹_› h2
        exact ⟨by simp only [Did.and, Nat.add_mul]; omega, h4⟩
      | stop a => obtain ⟨h1, h2⟩ := ih _ a hb; exact ⟨h1, fun o l' rest h => by cases h; exact h2 _ _ _ rfl⟩
      | err a => obtain ⟨h1, h2⟩ := ih _ a hb; exact ⟨h1, fun o l' rest h => by cases h; exact h2 _ _ _ rfl⟩
      | panic a => obtain ⟨h1, h2⟩ := ih _ a hb; exact ⟨h1, fun o l' rest h => by cases h; exact h2 _ _ _ rfl⟩
      | wait a => obtain ⟨h1, h2⟩ := ih _ a hb; exact ⟨h1, fun o l' rest h => by cases h⟩
  exact (key p hx hb).1

/-! ### a server that sends nothing -/

structure Quick {α : Type} (n : Nat) (p : Code α) : Prop where
  run : ∀ {T l es d r}, Exec T p l es d r → Silent es → d.ops ≤ n ∧ ∀ o l' rest, r = .done o l' rest → Silent rest

def Stuck {α : Type} (p : Code α) : Prop :=
  ∀ {T l es d a l' rest}, Exec T p l es d (.done (.ok a) l' rest) → ¬ Silent es

theorem Quick.mono {α : Type} {p : Code α} {a b : Nat} (h : Quick a p) (hab : a ≤ b) : Quick b p :=
  ⟨fun hx hs => ⟨Nat.le_trans (h.run hx hs).1 hab, (h.run hx hs).2⟩⟩

theorem Quick.out {α : Type} (o : Out Error α) : Quick 0 (.out o) :=
  ⟨by rintro T l es d r ⟨rfl, rfl⟩ hs; exact ⟨Nat.le_refl _, fun o l' rest h => by cases h; exact hs⟩⟩

theorem Quick.get : Quick 0 .get :=
  ⟨by rintro T l es d r ⟨rfl, rfl⟩ hs; exact ⟨Nat.le_refl _, fun o l' rest h => by cases h; exact hs⟩⟩

theorem Quick.modify (f : Loc → Loc) : Quick 0 (.modify f) :=
  ⟨by rintro T l es d r ⟨rfl, rfl⟩ hs; exact ⟨Nat.le_refl _, fun o l' rest h => by cases h; exact hs⟩⟩

theorem Quick.bind {α β : Type} {a b : Nat} {m : Code β} {k : β → Code α} (h1 : Quick a m) (h2 : ∀ x, Quick b (k x)) :
    Quick (a + b) (m >>= k) := by
  refine ⟨fun hx hs => ?_⟩
  cases hx with
  | ok x y =>
    obtain ⟨i1, i2⟩ := h1.run x hs
    obtain ⟨j1, j2⟩ := (h2 _).run y (i2 _ _ _ rfl)
    exact ⟨by simp only [Did.and]; omega, j2⟩
  | err x => obtain ⟨i1, i2⟩ := h1.run x hs; exact ⟨by omega, fun o l' rest h => by cases h; exact i2 _ _ _ rfl⟩
  | panic x => obtain ⟨i1, i2⟩ := h1.run x hs; exact ⟨by omega, fun o l' rest h => by cases h; exact i2 _ _ _ rfl⟩
  | wait x => obtain ⟨i1, i2⟩ := h1.run x hs; exact ⟨by omega, fun o l' rest h => by cases h⟩

theorem Quick.bind_stuck {α β : Type} {a : Nat} {m : Code β} {k : β → Code α} (h1 : Quick a m) (h2 : Stuck m) :
    Quick a (m >>= k) := by
  refine ⟨fun hx hs => ?_⟩
  cases hx with
  | ok x y => exact absurd hs (h2 x)
  | err x => obtain ⟨i1, i2⟩ := h1.run x hs; exact ⟨by omega, fun o l' rest h => by cases h; exact i2 _ _ _ rfl⟩
  | panic x => obtain ⟨i1, i2⟩ := h1.run x hs; exact ⟨by omega, fun o l' rest h => by cases h; exact i2 _ _ _ rfl⟩
  | wait x => obtain ⟨i1, i2⟩ := h1.run x hs; exact ⟨by omega, fun o l' rest h => by cases h⟩

theorem Stuck.bind {α β : Type} {m : Code β} {k : β → Code α} (h : Stuck m) : Stuck (m >>= k) := by
  intro T l es d a l' rest hx
  cases hx with
  | ok x _ => exact h x

theorem pollRead_rest (T : Nat) (es : List Poll) (n e : Nat) {r : Out IoKind Bytes} {rest : List Poll} {tape : List Rx}
    {t : Nat} (h : pollRead T es n e = (.done r rest, tape, t)) : ∃ pre, es = pre ++ rest := by
  induction es generalizing n e r tape t with
  | nil =>
    unfold pollRead at h
    split at h <;> cases h
    exact ⟨[], rfl⟩
  | cons p es ih =>
    unfold pollRead at h
    split at h
    · cases h; exact ⟨[], rfl⟩
    · split at h
      · split at h
        · cases h; exact ⟨[p], rfl⟩
        · split at h
          · rename_i hx
            cases h
            obtain ⟨pre, e⟩ := ih _ _ hx
            exact ⟨p :: pre, by rw [e]; rfl⟩
          · rename_i heq
            cases h
            obtain ⟨pre, e⟩ := ih _ _ heq
            exact ⟨p :: pre, by rw [e]; rfl⟩
      · cases h; exact ⟨[p], rfl⟩
      · cases h; exact ⟨[p], rfl⟩
      · split at h
        · cases h; exact ⟨[p], rfl⟩
        · obtain ⟨pre, e⟩ := ih _ _ h
          exact ⟨p :: pre, by rw [e]; rfl⟩
      · split at h
        · cases h; exact ⟨[p], rfl⟩
        · obtain ⟨pre, e⟩ := ih _ _ h
          exact ⟨p :: pre, by rw [e]; rfl⟩

theorem pollWrite_rest (T : Nat) (es : List Poll) (bs : Bytes) (e : Nat) {r : Out IoKind Unit} {rest : List Poll}
    {w : Bytes} {t : Nat} (h : pollWrite T es bs e = (.done r rest, w, t)) : ∃ pre, es = pre ++ rest := by
  induction es generalizing bs e r w t with
  | nil =>
    unfold pollWrite at h
    split at h <;> cases h
    exact ⟨[], rfl⟩
  | cons p es ih =>
    unfold pollWrite at h
    split at h
    · cases h; exact ⟨[], rfl⟩
    · split at h
      · split at h
        · cases h; exact ⟨[p], rfl⟩
        · cases hx : pollWrite T es (bs.drop _) (e + p.after)
          rename_i a b
          rw [hx] at h
          cases h
          obtain ⟨pre, e⟩ := ih _ _ hx
          exact ⟨p :: pre, by rw [e]; rfl⟩
      · cases h; exact ⟨[p], rfl⟩
      · cases h; exact ⟨[p], rfl⟩
      · split at h
        · cases h; exact ⟨[p], rfl⟩
        · obtain ⟨pre, e⟩ := ih _ _ h
          exact ⟨p :: pre, by rw [e]; rfl⟩
      · split at h
        · cases h; exact ⟨[p], rfl⟩
        · obtain ⟨pre, e⟩ := ih _ _ h
          exact ⟨p :: pre, by rw [e]; rfl⟩

theorem Quick.read (n : Nat) : Quick 1 (.read n) := by
  refine ⟨fun hx hs => ?_⟩
  cases hx with
  | done h =>
    obtain ⟨pre, rfl⟩ := pollRead_rest _ _ _ _ h
    exact ⟨Nat.le_refl _, fun o l' rest h => by cases h; exact fun p hp => hs p (by simp [hp])⟩
  | wait h => exact ⟨Nat.le_refl _, fun o l' rest h => by cases h⟩

theorem Quick.write (bs : Bytes) : Quick 1 (.write bs) := by
  refine ⟨fun hx hs => ?_⟩
  cases hx with
  | done h =>
    obtain ⟨pre, rfl⟩ := pollWrite_rest _ _ _ _ h
    exact ⟨Nat.le_refl _, fun o l' rest h => by cases h; exact fun p hp => hs p (by simp [hp])⟩
  | wait h => exact ⟨Nat.le_refl _, fun o l' rest h => by cases h⟩

theorem pollRead_silent (T : Nat) (es : List Poll) (n e : Nat) (hn : n ≠ 0) (hs : Silent es) {x rest tape t} :
    pollRead T es n e ≠ (.done (.ok x) rest, tape, t) := by
  induction es generalizing e with
  | nil =>
    unfold pollRead
    rw [if_neg hn]
    intro h; cases h
  | cons p es ih =>
    have hs' : Silent es := fun q hq => hs q (by simp [hq])
    unfold pollRead
    rw [if_neg hn]
    split
    · rename_i bs hp
      exact absurd hp (hs p (by simp) bs)
    · intro h; cases h
    · intro h; cases h
    · split
      · intro h; cases h
      · exact ih _ hs'
    · split
      · intro h; cases h
      · exact ih _ hs'

theorem Stuck.read (n : Nat) (hn : n ≠ 0) : Stuck (.read n) := by
  intro T l es d a l' rest hx hs
  generalize hr : Ran.done (Out.ok a) l' rest = r at hx
  cases hx with
  | done h =>
    rename_i rest r tape t
    cases r with
    | ok x => exact pollRead_silent T es n 0 hn hs h
    | err k => cases hr
    | panic => cases hr
  | wait h => cases hr

theorem Quick.packetTurn (dst : Bytes) : Quick 1 (Async.packetTurn dst) ∧ Stuck (Async.packetTurn dst) := by
  unfold Async.packetTurn Async.readChunk
  exact ⟨Quick.bind_stuck (Quick.bind_stuck (Quick.read 4) (Stuck.read 4 (by decide))) (Stuck.bind (Stuck.read 4 (by decide))),
    Stuck.bind (Stuck.bind (Stuck.read 4 (by decide)))⟩

theorem Quick.loop_stuck {σ α : Type} {n : Nat} {body : σ → Code (σ ⊕ α)} (s : σ) (h : Quick n (body s))
    (h2 : Stuck (body s)) : Quick n (.loop body s) ∧ Stuck (.loop body s) := by
  refine ⟨⟨fun hx hs => ?_⟩, ?_⟩
  · cases hx with
    | again x _ => exact absurd hs (h2 x)
    | stop x => exact absurd hs (h2 x)
    | err x => obtain ⟨i1, i2⟩ := h.run x hs; exact ⟨i1, fun o l' rest h => by cases h; exact i2 _ _ _ rfl⟩
    | panic x => obtain ⟨i1, i2⟩ := h.run x hs; exact ⟨i1, fun o l' rest h => by cases h; exact i2 _ _ _ rfl⟩
    | wait x => obtain ⟨i1, i2⟩ := h.run x hs; exact ⟨i1, fun o l' rest h => by cases h⟩
  · intro T l es d a l' rest hx
    cases hx with
    | again x _ => exact h2 x
    | stop x => exact h2 x

theorem Quick.readPacket : Quick 1 Async.readPacket ∧ Stuck Async.readPacket := by
  unfold Async.readPacket
  exact Quick.loop_stuck _ (Quick.packetTurn _).1 (Quick.packetTurn _).2

theorem Quick.writeChunks (bs : Bytes) : Quick (2 * ((bs.length + maxFrame - 1) / maxFrame)) (Async.writeChunks bs) := by
  induction hn : bs.length using Nat.strong_induction_on generalizing bs with
  | _ n ih =>
    subst hn
    rw [Async.writeChunks]
    split
    · exact (Quick.out _).mono (Nat.zero_le _)
    · rename_i h
      have hb : 0 < bs.length := List.length_pos_iff.mpr h
      have hm : MAX_PAYLOAD_LEN = maxFrame := MAX_eq
      have hp : 0 < maxFrame := by decide
      have := ih (bs.drop (min bs.length MAX_PAYLOAD_LEN)).length (by rw [List.length_drop]; omega) _ rfl
      refine Quick.mono (Quick.get.bind fun _ => (Quick.write _).bind fun _ => (Quick.write _).bind fun _ =>
        (Quick.modify _).bind fun _ => this) ?_
      rw [List.length_drop]
      by_cases hc : bs.length ≤ maxFrame
      · rw [Nat.min_eq_left (by omega), Nat.sub_self,
          Nat.div_eq_of_lt (show 0 + maxFrame - 1 < maxFrame by omega)]
        have : 1 ≤ (bs.length + maxFrame - 1) / maxFrame := (Nat.one_le_div_iff hp).2 (by omega)
        omega
      · rw [Nat.min_eq_right (by omega), hm]
        have : (bs.length + maxFrame - 1) / maxFrame = (bs.length - maxFrame + maxFrame - 1) / maxFrame + 1 := by
          rw [← Nat.add_div_right _ hp]
          congr 1
          omega
        omega

theorem Quick.writePacket (bs : Bytes) : Quick (2 * frameCount bs) (Async.writePacket bs) := by
  unfold Async.writePacket
  have hm : MAX_PAYLOAD_LEN = maxFrame := MAX_eq
  have hp : 0 < maxFrame := by decide
  have hd := Nat.div_add_mod bs.length maxFrame
  have hlt := Nat.mod_lt bs.length hp
  by_cases h : bs.length % MAX_PAYLOAD_LEN = 0
  · rw [if_pos h]
    refine Quick.mono ((Quick.writeChunks bs).bind fun _ => Quick.get.bind fun _ => (Quick.write _).bind fun _ =>
      Quick.modify _) ?_
    rw [hm] at h
    have : (bs.length + maxFrame - 1) / maxFrame = bs.length / maxFrame := by
      apply Nat.div_eq_of_lt_le
      · rw [Nat.mul_comm]; omega
      · rw [Nat.add_mul, Nat.mul_comm]; omega
    unfold frameCount
    omega
  · rw [if_neg h]
    refine Quick.mono ((Quick.writeChunks bs).bind fun _ => Quick.out _) ?_
    rw [hm] at h
    have : (bs.length + maxFrame - 1) / maxFrame ≤ bs.length / maxFrame + 1 := by
      rw [← Nat.add_div_right _ hp]
      exact Nat.div_le_div_right (by omega)
    unfold frameCount
    omega

theorem Quick.cleanup : Quick 1 Async.cleanup := by
  unfold Async.cleanup
  refine Quick.mono (Quick.get.bind (b := 1) fun c => ?_) (Nat.le_refl _)
  have ht : Quick 1 (Async.cleanupTurn ()) ∧ Stuck (Async.cleanupTurn ()) :=
    ⟨Quick.bind_stuck Quick.readPacket.1 Quick.readPacket.2, Stuck.bind Quick.readPacket.2⟩
  split
  · exact Quick.bind_stuck (Quick.loop_stuck () ht.1 ht.2).1 (Quick.loop_stuck () ht.1 ht.2).2
  · exact (Quick.out _).mono (Nat.zero_le _)

theorem Quick.executeCommand (cmd : Command) (data : Bytes) :
    Quick (1 + 2 * frameCount (cmd.toByte :: data)) (Async.executeCommand cmd data) := by
  unfold Async.executeCommand
  exact Quick.mono (Quick.cleanup.bind fun _ => (Quick.modify _).bind fun _ => Quick.writePacket _) (by omega)

/-- **C92** for a server that sends nothing, whatever it accepts: a statement does not succeed, and is told so within a
time that depends on `T`, on how late polls come, and on the length of the statement. -/
theorem C92_silent (sql : Str) {T g : Nat} {l : Loc} {es : List Poll} {d : Did} {r : Ran OkPacket} {w : Bool}
    (hx : Exec T (Async.executeQuery sql) l es d r) (hb : Brisk g w es) (hs : Silent es) :
    d.time ≤ (2 * frameCount (0x03 :: utf8 sql) + 2) * (T + g) ∧ ∀ ok l' rest, r ≠ .done (.ok ok) l' rest := by
  have hst : Stuck Async.readResponse := Stuck.bind Quick.readPacket.2
  have hq : Quick (2 * frameCount (0x03 :: utf8 sql) + 2) (Async.executeQuery sql) :=
    Quick.mono ((Quick.executeCommand .query (utf8 sql)).bind fun _ =>
      Quick.bind_stuck (Quick.bind_stuck Quick.readPacket.1 Quick.readPacket.2) hst)
      (by rw [show Command.query.toByte = 0x03 from rfl]; omega)
  refine ⟨Nat.le_trans (C92_operations_partial _ hx hb) (Nat.mul_le_mul_right _ (hq.run hx hs).1), ?_⟩
  rintro ok l' rest rfl
  cases hx with
  | ok a b =>
    have hs' := ((Quick.executeCommand .query (utf8 sql)).run a hs).2 _ _ _ rfl
    cases b with
    | ok a' _ => exact hst a' hs'

/-! ### what the time is -/

theorem pollRead_span (T : Nat) (es : List Poll) (n e : Nat) :
    (∀ r rest tape t, pollRead T es n e = (.done r rest, tape, t) → ∃ pre, es = pre ++ rest ∧ t = e + span pre) ∧
    (∀ tape t, pollRead T es n e = (.waiting, tape, t) → t = e + span es) := by
  induction es generalizing n e with
  | nil =>
    unfold pollRead
    split
    · exact ⟨fun _ _ _ _ h => by cases h; exact ⟨[], rfl, rfl⟩, fun _ _ h => by cases h⟩
    · exact ⟨fun _ _ _ _ h => (by cases h), fun _ _ h => by cases h; rfl⟩
  | cons p es ih =>
    have hc : ∀ pre, span (p :: pre) = p.after + span pre := fun pre => by simp [span]
    have one : span [p] = p.after := by simp [span]
    have more : ∀ n, (∀ r rest tape t, pollRead T es n (e + p.after) = (.done r rest, tape, t) →
        ∃ pre, p :: es = pre ++ rest ∧ t = e + span pre) ∧
        (∀ tape t, pollRead T es n (e + p.after) = (.waiting, tape, t) → t = e + span (p :: es)) := by
      intro n
      refine ⟨fun r rest tape t h => ?_, fun tape t h => ?_⟩
      · obtain ⟨pre, e1, e2⟩ := (ih n (e + p.after)).1 _ _ _ _ h
        exact ⟨p :: pre, by rw [e1]; rfl, by rw [hc]; omega⟩
      · rw [hc, (ih n (e + p.after)).2 _ _ h]; omega
    unfold pollRead
    split
    · exact ⟨fun _ _ _ _ h => by cases h; exact ⟨[], rfl, rfl⟩, fun _ _ h => by cases h⟩
    · split
      · rename_i bs hp
        split
        · exact ⟨fun _ _ _ _ h => by cases h; exact ⟨[p], rfl, by rw [one]⟩, fun _ _ h => by cases h⟩
        · split
          · rename_i hx
            exact ⟨fun _ _ _ _ h => by cases h; exact (more _).1 _ _ _ _ hx, fun _ _ h => by cases h⟩
          · rename_i heq
            exact ⟨fun _ _ _ _ h => by cases h; exact (more _).1 _ _ _ _ heq,
              fun _ _ h => by cases h; exact (more _).2 _ _ heq⟩
      · exact ⟨fun _ _ _ _ h => by cases h; exact ⟨[p], rfl, by rw [one]⟩, fun _ _ h => by cases h⟩
      · exact ⟨fun _ _ _ _ h => by cases h; exact ⟨[p], rfl, by rw [one]⟩, fun _ _ h => by cases h⟩
      · split
        · exact ⟨fun _ _ _ _ h => by cases h; exact ⟨[p], rfl, by rw [one]⟩, fun _ _ h => by cases h⟩
        · exact more n
      · split
        · exact ⟨fun _ _ _ _ h => by cases h; exact ⟨[p], rfl, by rw [one]⟩, fun _ _ h => by cases h⟩
        · exact more n

theorem pollWrite_span (T : Nat) (es : List Poll) (bs : Bytes) (e : Nat) :
    (∀ r rest w t, pollWrite T es bs e = (.done r rest, w, t) → ∃ pre, es = pre ++ rest ∧ t = e + span pre) ∧
    (∀ w t, pollWrite T es bs e = (.waiting, w, t) → t = e + span es) := by
  induction es generalizing bs e with
  | nil =>
    unfold pollWrite
    split
    · exact ⟨fun _ _ _ _ h => by cases h; exact ⟨[], rfl, rfl⟩, fun _ _ h => by cases h⟩
    · exact ⟨fun _ _ _ _ h => (by cases h), fun _ _ h => by cases h; rfl⟩
  | cons p es ih =>
    have hc : ∀ pre, span (p :: pre) = p.after + span pre := fun pre => by simp [span]
    have one : span [p] = p.after := by simp [span]
    have more : ∀ bs, (∀ r rest w t, pollWrite T es bs (e + p.after) = (.done r rest, w, t) →
        ∃ pre, p :: es = pre ++ rest ∧ t = e + span pre) ∧
        (∀ w t, pollWrite T es bs (e + p.after) = (.waiting, w, t) → t = e + span (p :: es)) := by
      intro bs
      refine ⟨fun r rest tape t h => ?_, fun tape t h => ?_⟩
      · obtain ⟨pre, e1, e2⟩ := (ih bs (e + p.after)).1 _ _ _ _ h
        exact ⟨p :: pre, by rw [e1]; rfl, by rw [hc]; omega⟩
      · rw [hc, (ih bs (e + p.after)).2 _ _ h]; omega
    unfold pollWrite
    split
    · exact ⟨fun _ _ _ _ h => by cases h; exact ⟨[], rfl, rfl⟩, fun _ _ h => by cases h⟩
    · split
      · rename_i k hp
        split
        · exact ⟨fun _ _ _ _ h => by cases h; exact ⟨[p], rfl, by rw [one]⟩, fun _ _ h => by cases h⟩
        · have m := more (bs.drop k)
          generalize pollWrite T es (bs.drop k) (e + p.after) = x at m
          obtain ⟨x, w, t⟩ := x
          exact ⟨fun _ _ _ _ h => by cases h; exact m.1 _ _ _ _ rfl, fun _ _ h => by cases h; exact m.2 _ _ rfl⟩
      · exact ⟨fun _ _ _ _ h => by cases h; exact ⟨[p], rfl, by rw [one]⟩, fun _ _ h => by cases h⟩
      · exact ⟨fun _ _ _ _ h => by cases h; exact ⟨[p], rfl, by rw [one]⟩, fun _ _ h => by cases h⟩
      · split
        · exact ⟨fun _ _ _ _ h => by cases h; exact ⟨[p], rfl, by rw [one]⟩, fun _ _ h => by cases h⟩
        · exact more bs
      · split
        · exact ⟨fun _ _ _ _ h => by cases h; exact ⟨[p], rfl, by rw [one]⟩, fun _ _ h => by cases h⟩
        · exact more bs

/-- the time of a call is that of the polls it has used: of those in front of what it has left, or of all. -/
theorem C92_clock {α : Type} (p : Code α) {T : Nat} {l : Loc} {es : List Poll} {d : Did} {r : Ran α}
    (hx : Exec T p l es d r) :
    (∀ o l' rest, r = .done o l' rest → ∃ pre, es = pre ++ rest ∧ d.time = span pre) ∧
    (∀ w l', r = .waiting w l' → d.time = span es) := by
  have sp : ∀ a b, span (a ++ b) = span a + span b := fun a b => by simp [span]
  induction p generalizing l es d with
  | out o =>
    obtain ⟨rfl, rfl⟩ := hx
    exact ⟨fun _ _ _ h => by cases h; exact ⟨[], rfl, rfl⟩, fun _ _ h => by cases h⟩
  | get =>
    obtain ⟨rfl, rfl⟩ := hx
    exact ⟨fun _ _ _ h => by cases h; exact ⟨[], rfl, rfl⟩, fun _ _ h => by cases h⟩
  | modify f =>
    obtain ⟨rfl, rfl⟩ := hx
    exact ⟨fun _ _ _ h => by cases h; exact ⟨[], rfl, rfl⟩, fun _ _ h => by cases h⟩
  | read n =>
    cases hx with
    | done h =>
      refine ⟨fun _ _ _ e => ?_, fun _ _ h => (by cases h)⟩
      cases e
      obtain ⟨pre, e1, e2⟩ := (pollRead_span T _ _ _).1 _ _ _ _ h
      exact ⟨pre, e1, by simpa using e2⟩
    | wait h => exact ⟨fun _ _ _ h => (by cases h), fun _ _ e => by simpa using (pollRead_span T _ _ _).2 _ _ h⟩
  | write bs =>
    cases hx with
    | done h =>
      refine ⟨fun _ _ _ e => ?_, fun _ _ h => (by cases h)⟩
      cases e
      obtain ⟨pre, e1, e2⟩ := (pollWrite_span T _ _ _).1 _ _ _ _ h
      exact ⟨pre, e1, by simpa using e2⟩
    | wait h => exact ⟨fun _ _ _ h => (by cases h), fun _ _ e => by simpa using (pollWrite_span T _ _ _).2 _ _ h⟩
  | bind m k ihm ihk =>
    cases hx with
    | ok a b =>
      obtain ⟨pre, rfl, e2⟩ := (ihm a).1 _ _ _ rfl
      obtain ⟨h3, h4⟩ := ihk _ b
      refine ⟨fun o l' rest h => ?_, fun w l' h => ?_⟩
      · obtain ⟨pre', rfl, e3⟩ := h3 _ _ _ h
        exact ⟨pre ++ pre', by simp, by simp only [Did.and, sp, e2, e3]⟩
      · simp only [Did.and, sp, e2, h4 _ _ h]
    | err a => exact ⟨fun _ _ _ h => by cases h; exact (ihm a).1 _ _ _ rfl, fun _ _ h => by cases h⟩
    | panic a => exact ⟨fun _ _ _ h => by cases h; exact (ihm a).1 _ _ _ rfl, fun _ _ h => by cases h⟩
    | wait a => exact ⟨fun _ _ _ h => (by cases h), fun _ _ h => (ihm a).2 _ _ rfl⟩
  | attempt m ih =>
    cases hx with
    | ok a => exact ⟨fun _ _ _ h => by cases h; exact (ih a).1 _ _ _ rfl, fun _ _ h => by cases h⟩
    | err a => exact ⟨fun _ _ _ h => by cases h; exact (ih a).1 _ _ _ rfl, fun _ _ h => by cases h⟩
    | panic a => exact ⟨fun _ _ _ h => by cases h; exact (ih a).1 _ _ _ rfl, fun _ _ h => by cases h⟩
    | wait a => exact ⟨fun _ _ _ h => (by cases h), fun _ _ h => (ih a).2 _ _ rfl⟩
  | loop body s ih =>
    have hx : Act.Loop (fun s => Exec T (body s)) s l es d r := hx
    induction hx with
    | again a b i =>
      obtain ⟨pre, rfl, e2⟩ := (ih _ a).1 _ _ _ rfl
      obtain ⟨h3, h4⟩ := i b
      refine ⟨fun o l' rest h => ?_, fun w l' h => ?_⟩
      · obtain ⟨pre', rfl, e3⟩ := h3 _ _ _ h
        exact ⟨pre ++ pre', by simp, by simp only [Did.and, sp, e2, e3]⟩
      · simp only [Did.and, sp, e2, h4 _ _ h]
    | stop a => exact ⟨fun _ _ _ h => by cases h; exact (ih _ a).1 _ _ _ rfl, fun _ _ h => by cases h⟩
    | err a => exact ⟨fun _ _ _ h => by cases h; exact (ih _ a).1 _ _ _ rfl, fun _ _ h => by cases h⟩
    | panic a => exact ⟨fun _ _ _ h => by cases h; exact (ih _ a).1 _ _ _ rfl, fun _ _ h => by cases h⟩
    | wait a => exact ⟨fun _ _ _ h => (by cases h), fun _ _ h => (ih _ a).2 _ _ rfl⟩

/-! ### where it fails -/

/-- a server that sends a row whenever it is waited for, without end. -/
def trickle : Nat → UInt8 → List Poll
  | 0, _ => [⟨0, .notReady⟩]
  | n + 1, s => ⟨0, .notReady⟩ :: ⟨1, .bytes [1, 0, 0, s]⟩ :: ⟨0, .bytes [0]⟩ :: trickle n (s + 1)

theorem trickle_brisk (n : Nat) (s : UInt8) : Brisk 1 false (trickle n s) := by
  induction n generalizing s with
  | zero => simp [trickle, Brisk]
  | succ n ih =>
    refine ⟨by simp, by simp, by simp, ?_⟩
    exact ih _

theorem trickle_row (T : Nat) (hT : 0 < T) (l : Loc) (rest : List Poll) :
    ∃ d, Exec T Async.readPacket l (⟨0, .notReady⟩ :: ⟨1, .bytes [1, 0, 0, l.seqId]⟩ :: ⟨0, .bytes [0]⟩ :: rest) d
      (.done (.ok [0]) { l with seqId := l.seqId + 1 } rest) ∧ d.time = 1 ∧ d.tx = [] := by
  have h1 : Exec T (.read 4) l (⟨0, .notReady⟩ :: ⟨1, .bytes [1, 0, 0, l.seqId]⟩ :: ⟨0, .bytes [0]⟩ :: rest)
      ⟨[.byte 1, .byte 0, .byte 0, .byte l.seqId], [], [], 1, 1⟩
      (.done (.ok [1, 0, 0, l.seqId]) l (⟨0, .bytes [0]⟩ :: rest)) := by
    refine Act.Read.done (r := .ok [1, 0, 0, l.seqId]) ?_
    simp [pollRead, show ¬ T ≤ 0 by omega]
  have h2 : Exec T (.read 1) l (⟨0, .bytes [0]⟩ :: rest) ⟨[.byte 0], [], [], 0, 1⟩ (.done (.ok [0]) l rest) := by
    refine Act.Read.done (r := .ok [0]) ?_
    cases rest <;> simp [pollRead]
  have h3 : Exec T (Async.readChunk []) l
      (⟨0, .notReady⟩ :: ⟨1, .bytes [1, 0, 0, l.seqId]⟩ :: ⟨0, .bytes [0]⟩ :: rest)
      (Did.and ⟨[.byte 1, .byte 0, .byte 0, .byte l.seqId], [], [], 1, 1⟩ (Did.and ⟨[.byte 0], [], [], 0, 1⟩ .none))
      (.done (.ok (l.seqId, true, [0])) l rest) := by
    unfold Async.readChunk
    refine Exec.bind_ok (d' := Did.and ⟨[.byte 0], [], [], 0, 1⟩ .none) h1 ?_
    exact Exec.bind_ok h2 ⟨rfl, rfl⟩
  refine ⟨_, Act.Loop.stop (Exec.bind_ok (d' := .none) h3 (Exec.get_bind ?_)), rfl, rfl⟩
  rw [if_neg (by simp)]
  exact Exec.modify_bind ⟨rfl, rfl⟩

theorem trickle_cleanup (T : Nat) (hT : 0 < T) (n : Nat) (l : Loc) (hp : l.pendingResult = true) :
    ∃ d l', Exec T Async.cleanup l (trickle n l.seqId) d (.waiting .reading l') ∧ d.time = n ∧ d.tx = [] := by
  have key : ∃ d l', Exec T (.loop Async.cleanupTurn ()) l (trickle n l.seqId) d (.waiting .reading l') ∧
      d.time = n ∧ d.tx = [] := by
    induction n generalizing l with
    | zero =>
      refine ⟨⟨[], [], [], 0, 1⟩, l, Act.Loop.wait ?_, rfl, rfl⟩
      unfold Async.cleanupTurn
      refine Exec.bind_wait (Act.Loop.wait ?_)
      unfold Async.packetTurn Async.readChunk
      refine Exec.bind_wait (Exec.bind_wait (Act.Read.wait ?_))
      have : ¬ T ≤ 0 := by omega
      simp [trickle, pollRead, this]
    | succ n ih =>
      obtain ⟨d1, h1, h2, h3⟩ := trickle_row T hT l (trickle n (l.seqId + 1))
      obtain ⟨d2, l', h4, h5, h6⟩ := ih { l with seqId := l.seqId + 1 } hp
      refine ⟨(d1.and .none).and d2, l', Act.Loop.again (s' := ()) ?_ h4, ?_, ?_⟩
      · unfold Async.cleanupTurn
        refine Exec.bind_ok h1 (Exec.get_bind ?_)
        rw [isLast_row _ (Or.inr ⟨[], rfl⟩)]
        exact Exec.bind_ok (d := .none) (d' := .none) (b := false) ⟨rfl, rfl⟩ ⟨rfl, rfl⟩
      · simp only [Did.and, Did.none, h2, h5]; omega
      · simp [Did.and, Did.none, h3, h6]
  obtain ⟨d, l', h1, h2, h3⟩ := key
  refine ⟨d, l', ?_, h2, h3⟩
  unfold Async.cleanup
  refine Exec.get_bind ?_
  rw [hp]
  exact Exec.bind_wait h1

/-- **C92** is violated: a call that begins with a command discards what is left of an abandoned result first.  For every
time `N`, if the server sends a row whenever it is waited for, the call has been waiting that long, is suspended, and
has written nothing.  (The same holds for a server that sends a row forever: there is no limit to the frames of a
packet.) -/
theorem C92_endless_violated {α : Type} {p : Code α} {m : M α} (h : Commanding p m) (T : Nat) (hT : 0 < T) (l : Loc)
    (hp : l.pendingResult = true) (N : Nat) :
    ∃ es d l', Exec T p l es d (.waiting .reading l') ∧ Brisk 1 false es ∧ d.time = N ∧ d.tx = [] := by
  obtain ⟨d, l', h1, h2, h3⟩ := trickle_cleanup T hT N l hp
  refine ⟨_, d, l', ?_, trickle_brisk N l.seqId, h2, h3⟩
  have hc : ∀ cmd data, Exec T (Async.executeCommand cmd data) l (trickle N l.seqId) d (.waiting .reading l') :=
    fun cmd data => Exec.bind_wait h1
  cases h with
  | disconnect => exact hc _ _
  | query sql => exact Exec.bind_wait (hc _ _)
  | executeQuery sql => exact Exec.bind_wait (hc _ _)
  | prepare sql => exact Exec.bind_wait (hc _ _)

/-- a byte arrives in each unit of time. -/
def drip (bs : Bytes) : List Poll := (bs.flatMap fun b => [⟨0, .notReady⟩, ⟨1, .bytes [b]⟩]) ++ [⟨0, .notReady⟩]

theorem drip_brisk (bs : Bytes) : Brisk 1 false (drip bs) := by
  induction bs with
  | nil => simp [drip, Brisk]
  | cons b bs ih =>
    have : drip (b :: bs) = ⟨0, .notReady⟩ :: ⟨1, .bytes [b]⟩ :: drip bs := by simp [drip]
    rw [this]
    exact ⟨by simp, by simp, ih⟩

theorem drip_read (T : Nat) (bs : Bytes) (n e : Nat) (he : e + bs.length = T) (hn : bs.length < n) :
    pollRead T (drip bs) n e = (.done (.err .timedOut) [], bs.map .byte ++ [.fault .timedOut], T) := by
  induction bs generalizing n e with
  | nil =>
    simp only [List.length_nil, Nat.add_zero] at he hn
    subst he
    simp [drip, pollRead, show n ≠ 0 by omega]
  | cons b bs ih =>
    simp only [List.length_cons] at he hn
    have : drip (b :: bs) = ⟨0, .notReady⟩ :: ⟨1, .bytes [b]⟩ :: drip bs := by simp [drip]
    have hi := ih (n - 1) (e + 1) (by omega) (by omega)
    have ht : [b].take n = [b] := List.take_of_length_le (by simp; omega)
    rw [this, pollRead, if_neg (by omega)]
    dsimp only
    rw [if_neg (by omega), pollRead, if_neg (by omega)]
    dsimp only
    rw [if_neg (by simp), ht]
    simp only [List.length_singleton, Nat.add_zero, hi]
    rfl

/-- The limit is for a frame as a whole, which may have 16 MiB: of a row of more than `T` bytes a byte arrives in each
unit of time, and yet the call fails. -/
theorem C92_steady_violated {R : Type} (rd : RowReader R) (rs : RSet) (hrs : rs.okPacket = none) (T : Nat) (l : Loc)
    (p : Bytes) (h1 : T < p.length) (h2 : p.length < maxFrame) :
    ∃ es d l', Exec T (Async.next rd rs) l es d (.done (.err (.protocol (.io .timedOut))) l' []) ∧
      Brisk 1 false es ∧ d.time = T ∧ rxOf (frames l.seqId p) = d.rx.dropLast ++ rxOf (p.drop T) := by
  have hM : p.length < MAX_PAYLOAD_LEN := by rw [MAX_eq]; exact h2
  have hM2 : MAX_PAYLOAD_LEN < 2 ^ 24 := by unfold MAX_PAYLOAD_LEN; omega
  refine ⟨⟨0, .bytes (leBytes 3 p.length ++ [l.seqId])⟩ :: drip (p.take T),
    Did.and ⟨rxOf (leBytes 3 p.length ++ [l.seqId]), [], [], 0, 1⟩
      ⟨(p.take T).map .byte ++ [.fault .timedOut], [], [], T, 1⟩, l, ?_, ?_, ?_, ?_⟩
  · unfold Async.next
    rw [hrs, if_neg (by simp)]
    refine Act.Bind.err (Act.Loop.err ?_)
    unfold Async.packetTurn
    refine Act.Bind.err ?_
    unfold Async.readChunk
    obtain ⟨a, b, c, hh⟩ : ∃ a b c, leBytes 3 p.length = [a, b, c] := ⟨_, _, _, rfl⟩
    have hle : leNat [a, b, c] = p.length := by
      rw [← hh, leNat_leBytes]
      exact Nat.mod_eq_of_lt (by omega)
    rw [hh]
    refine Exec.bind_ok (b := [a, b, c, l.seqId]) (l1 := l)
      (Act.Read.done (r := .ok [a, b, c, l.seqId]) (rest := drip (p.take T)) ?_) ?_
    · obtain ⟨x, xs, hd⟩ : ∃ x xs, drip (p.take T) = x :: xs := by
        cases h : drip (p.take T) with
        | nil => simp [drip] at h
        | cons x xs => exact ⟨x, xs, rfl⟩
      rw [hd]
      simp [pollRead, rxOf]
    · dsimp only
      rw [hle, if_neg (by omega)]
      refine Act.Bind.err (Act.Read.done (r := .err .timedOut) ?_)
      exact drip_read T (p.take T) p.length 0 (by rw [List.length_take]; omega) (by rw [List.length_take]; omega)
  · refine ⟨by simp, ?_⟩
    exact drip_brisk _
  · simp [Did.and]
  · rw [frames_short _ _ hM]
    simp only [Did.and]
    rw [← List.append_assoc, List.dropLast_concat]
    simp only [rxOf, ← List.map_append, List.append_assoc, List.take_append_drop]

/-! ### cases -/

/-- A statement with a limit of 10, polled at most 3 late: the server accepts everything and sends nothing; after 11 it is
told that the time is up. And a statement on a connection with an abandoned result, which is still waiting after 300. -/
theorem C92_example :
    (((Async.executeQuery "a".toList).poll 10 5 (exConn []).loc
        [⟨0, .wrote 4⟩, ⟨0, .wrote 2⟩, ⟨0, .notReady⟩, ⟨3, .notReady⟩, ⟨3, .notReady⟩, ⟨3, .notReady⟩, ⟨2, .notReady⟩]).map
      fun x => (x.1.time, x.1.ops, match x.2 with | .done (.err e) _ [] => some e | _ => none)) =
      some (11, 3, some (.protocol (.io .timedOut))) ∧
    (((Async.executeQuery "a".toList).poll 10 400 { (exConn []).loc with pendingResult := true, seqId := 250 }
        (trickle 300 250)).map
      fun x => (x.1.time, x.1.tx, match x.2 with | .waiting w _ => some w | _ => none)) =
      some (300, [], some .reading) := by
  refine ⟨?_, ?_⟩ <;> decide +kernel

end Verif

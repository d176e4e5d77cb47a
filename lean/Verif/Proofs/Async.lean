import Verif.Spec.Async
import Verif.Proofs.Causal

/-! # The functions as futures and the functions on the tape -/

namespace Verif

/-- finished as a future, the call has done what the function does on the tape of what was delivered. -/
def OnTape {α : Type} (p : Code α) (m : M α) : Prop :=
  ∀ {T : Nat} {l l' : Loc} {es rest : List Poll} {d : Did} {o : Out Error α},
    Exec T p l es d (.done o l' rest) → ∀ rx tx wf,
      m (l.conn (d.rx ++ rx) tx (d.wf ++ wf)) = (o, l'.conn rx (tx ++ d.tx) wf)

/-- suspended as a future, the call has done what the function does that fails there. -/
def Drops {α : Type} (p : Code α) (m : M α) : Prop :=
  ∀ {T : Nat} {l l' : Loc} {es : List Poll} {d : Did} {w : Spot},
    Exec T p l es d (.waiting w l') → ∀ k rx tx wf,
      m (l.conn (d.rx ++ (w.rx k ++ rx)) tx (d.wf ++ (w.wf k ++ wf))) =
        (.err (.protocol (.io k)), l'.conn rx (tx ++ d.tx) wf)

/-- there are polls that lead to what the function does. -/
def Real {α : Type} (p : Code α) (m : M α) : Prop :=
  ∀ (T : Nat) (l : Loc) (rx : List Rx) (tx : Bytes), ∃ es d o l' rx',
    (∀ rest, Exec T p l (es ++ rest) d (.done o l' rest)) ∧ Fits d.rx rx rx' ∧ (∀ x ∈ d.wf, x = none) ∧
      m (l.conn rx tx []) = (o, l'.conn rx' (tx ++ d.tx) [])

structure Twin {α : Type} (p : Code α) (m : M α) : Prop where
  sound : OnTape p m
  drops : Drops p m
  real : Real p m

theorem Fits.refl (rx : List Rx) : Fits [] rx rx := ⟨0, by simp, fun h => absurd rfl h⟩

theorem Fits.trans {t1 t2 rx rx1 rx2 : List Rx} (h1 : Fits t1 rx rx1) (h2 : Fits t2 rx1 rx2) :
    Fits (t1 ++ t2) rx rx2 := by
  obtain ⟨n1, h1, e1⟩ := h1
  obtain ⟨n2, h2, e2⟩ := h2
  refine ⟨n1 + n2, ?_, fun h => ?_⟩
  · rw [List.append_assoc, h2, ← List.append_assoc, h1, List.append_assoc, List.replicate_append_replicate]
  · by_cases h0 : n2 = 0
    · subst h0
      rw [e1 (by omega)] at h2
      simp only [List.replicate_zero, List.append_nil, List.append_eq_nil_iff] at h2
      exact h2.2
    · exact e2 h0

/-! ### Operations -/

theorem takeRx_bytes (bs : Bytes) (n : Nat) (h : bs.length ≤ n) (r : List Rx) :
    takeRx n (bs.map .byte ++ r) =
      match takeRx (n - bs.length) r with
      | (.ok x, r') => (.ok (bs ++ x), r')
      | (x, r') => (x, r') := by
  induction bs generalizing n with
  | nil =>
    simp only [List.map_nil, List.nil_append, List.length_nil, Nat.sub_zero]
    match takeRx n r with
    | (.ok x, r') => rfl
    | (.err _, r') => rfl
    | (.panic, r') => rfl
  | cons b bs ih =>
    match n, h with
    | n + 1, h =>
      have h' : bs.length ≤ n := by simpa using h
      rw [List.map_cons, List.cons_append, takeRx, ih n h', List.length_cons, Nat.add_sub_add_right]
      match takeRx (n - bs.length) r with
      | (.ok x, r') => rfl
      | (.err _, r') => rfl
      | (.panic, r') => rfl

/-- what a finished operation was told by the tape. -/
theorem pollRead_sound (T : Nat) (es : List Poll) (n e : Nat) :
    (∀ r rest tape t, pollRead T es n e = (.done r rest, tape, t) → ∀ rx, takeRx n (tape ++ rx) = (r, rx)) ∧
    (∀ tape t, pollRead T es n e = (.waiting, tape, t) →
      ∀ k rx, takeRx n (tape ++ .fault k :: rx) = (.err k, rx)) := by
  induction es generalizing n e with
  | nil =>
    unfold pollRead
    by_cases hn : n = 0
    · subst hn
      refine ⟨fun r rest tape t h rx => ?_, fun tape t h => ?_⟩
      · simp only [if_true] at h; cases h; rfl
      · simp only [if_true] at h; cases h
    · rw [if_neg hn]
      refine ⟨fun r rest tape t h => (by cases h), fun tape t h k rx => ?_⟩
      cases h
      match n, hn with
      | n + 1, _ => rfl
  | cons p es ih =>
    unfold pollRead
    by_cases hn : n = 0
    · subst hn
      refine ⟨fun r rest tape t h rx => ?_, fun tape t h => ?_⟩
      · simp only [if_true] at h; cases h; rfl
      · simp only [if_true] at h; cases h
    · rw [if_neg hn]
      have fails : ∀ k : IoKind, ∀ rx, takeRx n ([.fault k] ++ rx) = (.err k, rx) := by
        intro k rx
        match n, hn with
        | n + 1, _ => rfl
      have tick : ∀ x : Polled Bytes × List Rx × Nat,
          (if T ≤ e + p.after then (Polled.done (.err .timedOut) es, [Rx.fault .timedOut], e + p.after)
            else pollRead T es n (e + p.after)) = x →
          (∀ r rest tape t, x = (.done r rest, tape, t) → ∀ rx, takeRx n (tape ++ rx) = (r, rx)) ∧
          (∀ tape t, x = (.waiting, tape, t) → ∀ k rx, takeRx n (tape ++ .fault k :: rx) = (.err k, rx)) := by
        intro x hx
        split at hx
        · subst hx
          refine ⟨fun r rest tape t h rx => ?_, fun tape t h => (by cases h)⟩
          cases h
          exact fails _ _
        · subst hx
          exact ih n (e + p.after)
      split
      · rename_i bs _
        split
        · refine ⟨fun r rest tape t h rx => ?_, fun tape t h => (by cases h)⟩
          cases h
          exact fails _ _
        · have hl : (bs.take n).length ≤ n := by simp; omega
          obtain ⟨ih1, ih2⟩ := ih (n - (bs.take n).length) (e + p.after)
          match hx : pollRead T es (n - (bs.take n).length) (e + p.after) with
          | (.done (.ok r) rest, tape, t) =>
            refine ⟨fun r' rest' tape' t' h rx => ?_, fun tape t h => (by cases h)⟩
            cases h
            rw [List.append_assoc, takeRx_bytes _ _ hl, ih1 _ _ _ _ hx rx]
          | (.done (.err k) rest, tape, t) =>
            refine ⟨fun r' rest' tape' t' h rx => ?_, fun tape t h => (by cases h)⟩
            cases h
            rw [List.append_assoc, takeRx_bytes _ _ hl, ih1 _ _ _ _ hx rx]
          | (.done .panic rest, tape, t) =>
            refine ⟨fun r' rest' tape' t' h rx => ?_, fun tape t h => (by cases h)⟩
            cases h
            rw [List.append_assoc, takeRx_bytes _ _ hl, ih1 _ _ _ _ hx rx]
          | (.waiting, tape, t) =>
            refine ⟨fun r' rest' tape' t' h rx => (by cases h), fun tape' t' h k rx => ?_⟩
            cases h
            rw [List.append_assoc, takeRx_bytes _ _ hl, ih2 _ _ hx k rx]
      · refine ⟨fun r rest tape t h rx => ?_, fun tape t h => (by cases h)⟩
        cases h
        exact fails _ _
      · refine ⟨fun r rest tape t h rx => ?_, fun tape t h => (by cases h)⟩
        cases h
        exact fails _ _
      · exact tick _ rfl
      · exact tick _ rfl

/-- what has been accepted of a write. -/
theorem pollWrite_sound (T : Nat) (es : List Poll) (bs : Bytes) (e : Nat) :
    (∀ r rest w t, pollWrite T es bs e = (.done r rest, w, t) →
      (r = .ok () ∧ w = bs) ∨ ∃ k, r = .err k ∧ w.length < bs.length ∧ w = bs.take w.length) ∧
    (∀ w t, pollWrite T es bs e = (.waiting, w, t) → w.length < bs.length ∧ w = bs.take w.length) := by
  induction es generalizing bs e with
  | nil =>
    unfold pollWrite
    split
    · rename_i hb
      subst hb
      refine ⟨fun r rest w t h => ?_, fun w t h => (by cases h)⟩
      cases h
      exact Or.inl ⟨rfl, rfl⟩
    · rename_i hb
      refine ⟨fun r rest w t h => (by cases h), fun w t h => ?_⟩
      cases h
      exact ⟨List.length_pos_iff.mpr hb, rfl⟩
  | cons p es ih =>
    unfold pollWrite
    split
    · rename_i hb
      subst hb
      refine ⟨fun r rest w t h => ?_, fun w t h => (by cases h)⟩
      cases h
      exact Or.inl ⟨rfl, rfl⟩
    · rename_i hb
      have pos : 0 < bs.length := List.length_pos_iff.mpr hb
      have tick : ∀ x : Polled Unit × Bytes × Nat,
          (if T ≤ e + p.after then (Polled.done (.err .timedOut) es, ([] : Bytes), e + p.after)
            else pollWrite T es bs (e + p.after)) = x →
          (∀ r rest w t, x = (.done r rest, w, t) →
            (r = .ok () ∧ w = bs) ∨ ∃ k, r = .err k ∧ w.length < bs.length ∧ w = bs.take w.length) ∧
          (∀ w t, x = (.waiting, w, t) → w.length < bs.length ∧ w = bs.take w.length) := by
        intro x hx
        split at hx
        · subst hx
          refine ⟨fun r rest tape t h => ?_, fun tape t h => (by cases h)⟩
          cases h
          exact Or.inr ⟨_, rfl, pos, rfl⟩
        · subst hx
          exact ih bs (e + p.after)
      split
      · rename_i k _
        split
        · refine ⟨fun r rest tape t h => ?_, fun tape t h => (by cases h)⟩
          cases h
          exact Or.inr ⟨_, rfl, pos, rfl⟩
        · rename_i hk
          obtain ⟨ih1, ih2⟩ := ih (bs.drop k) (e + p.after)
          have step : ∀ w : Bytes, w.length < (bs.drop k).length → w = (bs.drop k).take w.length →
              (bs.take k ++ w).length < bs.length ∧ bs.take k ++ w = bs.take (bs.take k ++ w).length := by
            intro w h1 h2
            rw [List.length_drop] at h1
            have hk' : (bs.take k).length = k := by rw [List.length_take]; omega
            rw [List.length_append, hk']
            refine ⟨by omega, ?_⟩
            rw [List.take_add, ← h2]
          match hx : pollWrite T es (bs.drop k) (e + p.after) with
          | (.done r rest, w, t) =>
            refine ⟨fun r' rest' w' t' h => ?_, fun w t h => (by cases h)⟩
            cases h
            rcases ih1 _ _ _ _ hx with ⟨h1, h2⟩ | ⟨k', h1, h2, h3⟩
            · exact Or.inl ⟨h1, by rw [h2, List.take_append_drop]⟩
            · exact Or.inr ⟨k', h1, step _ h2 h3⟩
          | (.waiting, w, t) =>
            refine ⟨fun r' rest' tape' t' h => (by cases h), fun w' t' h => ?_⟩
            cases h
            obtain ⟨h2, h3⟩ := ih2 _ _ hx
            exact step _ h2 h3
      · refine ⟨fun r rest tape t h => ?_, fun tape t h => (by cases h)⟩
        cases h
        exact Or.inr ⟨_, rfl, pos, rfl⟩
      · refine ⟨fun r rest tape t h => ?_, fun tape t h => (by cases h)⟩
        cases h
        exact Or.inr ⟨_, rfl, pos, rfl⟩
      · exact tick _ rfl
      · exact tick _ rfl

/-- polls that deliver what is to come, byte by byte. -/
theorem pollRead_real (T n e : Nat) (rx : List Rx) :
    ∃ es tape t, (∀ rest, pollRead T (es ++ rest) n e = (.done (takeRx n rx).1 rest, tape, t)) ∧
      Fits tape rx (takeRx n rx).2 := by
  induction n generalizing rx e with
  | zero =>
    refine ⟨[], [], e, fun rest => ?_, Fits.refl rx⟩
    cases rest <;> rfl
  | succ n ih =>
    match rx with
    | [] =>
      refine ⟨[⟨0, .zero⟩], [.fault .unexpectedEof], e, fun rest => rfl, 1, rfl, fun _ => rfl⟩
    | .fault k :: r =>
      by_cases hk : k = .timedOut
      · subst hk
        refine ⟨[⟨T, .notReady⟩], [.fault .timedOut], e + T, fun rest => ?_, 0, by simp [takeRx], fun h => absurd rfl h⟩
        rw [List.singleton_append, pollRead, if_neg (Nat.succ_ne_zero n)]
        dsimp only
        rw [if_pos (Nat.le_add_left _ _)]
        rfl
      · refine ⟨[⟨0, .fail k⟩], [.fault k], e, fun rest => rfl, 0, by simp [takeRx], fun h => absurd rfl h⟩
    | .byte b :: r =>
      obtain ⟨es, tape, t, h1, m, h2, h3⟩ := ih e r
      refine ⟨⟨0, .bytes [b]⟩ :: es, .byte b :: tape, t, fun rest => ?_, m, ?_, ?_⟩
      · have := h1 rest
        rw [List.cons_append, pollRead, if_neg (Nat.succ_ne_zero n)]
        dsimp only
        rw [if_neg (by simp)]
        simp only [List.take_succ_cons, List.take_nil, List.length_singleton, Nat.add_sub_cancel, Nat.add_zero, this]
        rw [takeRx]
        match takeRx n r with
        | (.ok bs, r') => rfl
        | (.err _, r') => rfl
        | (.panic, r') => rfl
      · rw [takeRx]
        match h : takeRx n r, h2 with
        | (.ok bs, r'), h2 => simpa using h2
        | (.err _, r'), h2 => simpa using h2
        | (.panic, r'), h2 => simpa using h2
      · rw [takeRx]
        match h : takeRx n r, h3 with
        | (.ok bs, r'), h3 => simpa using h3
        | (.err _, r'), h3 => simpa using h3
        | (.panic, r'), h3 => simpa using h3

theorem pollWrite_real (T : Nat) (bs : Bytes) :
    ∃ es, ∀ rest, pollWrite T (es ++ rest) bs 0 = (.done (.ok ()) rest, bs, 0) := by
  by_cases h : bs = []
  · subst h
    refine ⟨[], fun rest => ?_⟩
    cases rest <;> rfl
  · refine ⟨[⟨0, .wrote bs.length⟩], fun rest => ?_⟩
    have hl : bs.length ≠ 0 := fun hh => h (List.length_eq_zero_iff.mp hh)
    simp only [List.singleton_append, pollWrite, if_neg h, if_neg hl, List.drop_length, List.take_length]
    cases rest <;> simp [pollWrite]

namespace Twin

variable {α β σ : Type}

theorem out (x : Out Error α) : Twin (.out x) (SM.ofOut x) where
  sound := by
    intro T l l' es rest d o h rx tx wf
    obtain ⟨rfl, h⟩ := h
    cases h
    simp [Did.none, SM.ofOut]
  drops := by
    intro T l l' es d w h
    obtain ⟨rfl, h⟩ := h
    cases h
  real := fun T l rx tx => ⟨[], .none, x, l, rx, fun rest => ⟨rfl, rfl⟩, Fits.refl rx, fun x h => (by cases h),
    by simp [Did.none, SM.ofOut]⟩

theorem pure (a : α) : Twin (Pure.pure a) (Pure.pure a) := out (.ok a)
theorem fail (e : Error) : Twin (Async.fail e : Code α) (SM.fail e) := out (.err e)
theorem crash : Twin (Async.crash : Code α) SM.crash := out .panic
theorem liftP (x : Out ProtocolError α) : Twin (Async.liftP x) (Verif.liftP x) := out _
theorem liftParse (x : Out ParseError α) : Twin (Async.liftParse x) (Verif.liftParse x) := out _
theorem liftS (x : Out SerializeError α) : Twin (Async.liftS x) (Verif.liftS x) := out _

theorem modify {f : Loc → Loc} {g : Conn → Conn}
    (h : ∀ (l : Loc) rx tx wf, g (l.conn rx tx wf) = (f l).conn rx tx wf) : Twin (.modify f) (SM.modify g) where
  sound := by
    intro T l l' es rest d o hx rx tx wf
    obtain ⟨rfl, hx⟩ := hx
    cases hx
    simp [Did.none, SM.modify, h]
  drops := by
    intro T l l' es d w h
    obtain ⟨rfl, h⟩ := h
    cases h
  real := fun T l rx tx => ⟨[], .none, .ok (), f l, rx, fun rest => ⟨rfl, rfl⟩, Fits.refl rx, fun x h => (by cases h),
    by simp [Did.none, SM.modify, h]⟩

theorem read (n : Nat) : Twin (.read n) (readExact n) where
  sound := by
    intro T l l' es rest d o h rx tx wf
    cases h with
    | done h =>
      have := (pollRead_sound T es n 0).1 _ _ _ _ h rx
      simp only [readExact, Loc.conn, this, List.nil_append, List.append_nil]
      rfl
  drops := by
    intro T l l' es d w h k rx tx wf
    cases h with
    | wait h =>
      have := (pollRead_sound T es n 0).2 _ _ h k rx
      simp only [readExact, Loc.conn, Spot.rx, Spot.wf, List.singleton_append, this, List.nil_append, List.append_nil]
      rfl
  real := fun T l rx tx => by
    obtain ⟨es, tape, t, h1, h2⟩ := pollRead_real T n 0 rx
    refine ⟨es, _, _, l, _, fun rest => .done (h1 rest), h2, fun x h => (by cases h), ?_⟩
    simp only [readExact, Loc.conn, List.append_nil]
    rfl

theorem write (bs : Bytes) : Twin (.write bs) (writeRaw bs) where
  sound := by
    intro T l l' es rest d o h rx tx wf
    cases h with
    | done h =>
      rcases (pollWrite_sound T es bs 0).1 _ _ _ _ h with ⟨rfl, rfl⟩ | ⟨k, rfl, -, hw⟩
      · simp [writeRaw, Loc.conn, writeEnd, ioOut, Out.mapErr]
      · simp [writeRaw, Loc.conn, writeEnd, ioOut, Out.mapErr, ← hw]
  drops := by
    intro T l l' es d w h k rx tx wf
    cases h with
    | wait h =>
      obtain ⟨-, hw⟩ := (pollWrite_sound T es bs 0).2 _ _ h
      simp [writeRaw, Loc.conn, Spot.rx, Spot.wf, ← hw]
  real := fun T l rx tx => by
    obtain ⟨es, h1⟩ := pollWrite_real T bs
    refine ⟨es, _, _, l, rx, fun rest => .done (h1 rest), Fits.refl rx, fun x h => ?_, ?_⟩
    · simpa [writeEnd] using h
    · simp [writeRaw, Loc.conn, ioOut, Out.mapErr]

theorem bind {p : Code β} {m : M β} {k : β → Code α} {f : β → M α} (hp : Twin p m) (hk : ∀ b, Twin (k b) (f b)) :
    Twin (p >>= k) (m >>= f) where
  sound := by
    intro T l l' es rest d o h rx tx wf
    cases h with
    | ok h1 h2 =>
      rename_i l1 es1 d d' b
      have e1 := hp.sound h1 (d'.rx ++ rx) tx (d'.wf ++ wf)
      have e2 := (hk b).sound h2 rx (tx ++ d.tx) wf
      simp only [Did.and, List.append_assoc]
      rw [SM.bind_of_ok e1, e2, List.append_assoc]
    | err h1 => exact SM.bind_of_err (hp.sound h1 rx tx wf)
    | panic h1 => exact SM.bind_of_panic (hp.sound h1 rx tx wf)
  drops := by
    intro T l l' es d w h q rx tx wf
    cases h with
    | ok h1 h2 =>
      rename_i l1 es1 d d' b
      have e1 := hp.sound h1 (d'.rx ++ (w.rx q ++ rx)) tx (d'.wf ++ (w.wf q ++ wf))
      have e2 := (hk b).drops h2 q rx (tx ++ d.tx) wf
      simp only [Did.and, List.append_assoc]
      rw [SM.bind_of_ok e1, e2, List.append_assoc]
    | wait h1 => exact SM.bind_of_err (hp.drops h1 q rx tx wf)
  real := fun T l rx tx => by
    obtain ⟨es, d, o, l1, rx1, h1, h2, hw, h3⟩ := hp.real T l rx tx
    match o, h1, h3 with
    | .err e, h1, h3 => exact ⟨es, d, _, l1, rx1, fun rest => .err (h1 rest), h2, hw, SM.bind_of_err h3⟩
    | .panic, h1, h3 => exact ⟨es, d, _, l1, rx1, fun rest => .panic (h1 rest), h2, hw, SM.bind_of_panic h3⟩
    | .ok b, h1, h3 =>
      obtain ⟨es', d', o', l2, rx2, k1, k2, kw, k3⟩ := (hk b).real T l1 rx1 (tx ++ d.tx)
      refine ⟨es ++ es', d.and d', o', l2, rx2, fun rest => ?_, h2.trans k2, fun x hx => ?_, ?_⟩
      · rw [List.append_assoc]
        exact .ok (h1 _) (k1 rest)
      · rcases List.mem_append.1 hx with hx | hx
        · exact hw x hx
        · exact kw x hx
      · rw [SM.bind_of_ok h3, k3, Did.and, List.append_assoc]

/-- the continuation looks at the fields only. -/
theorem get_bind {k : Loc → Code α} {f : Conn → M α} (h : ∀ l : Loc, ∀ rx tx wf, Twin (k l) (f (l.conn rx tx wf))) :
    Twin (Code.get >>= k) (SM.get >>= f) where
  sound := by
    intro T l l' es rest d o hx rx tx wf
    cases hx with
    | ok h1 h2 =>
      rename_i l1 es1 d d' b
      obtain ⟨rfl, h1⟩ := h1
      cases h1
      simpa [Did.and, Did.none] using (h _ _ _ _).sound h2 rx tx wf
    | err h1 => cases h1.2
    | panic h1 => cases h1.2
  drops := by
    intro T l l' es d w hx q rx tx wf
    cases hx with
    | ok h1 h2 =>
      rename_i l1 es1 d d' b
      obtain ⟨rfl, h1⟩ := h1
      cases h1
      simpa [Did.and, Did.none] using (h _ _ _ _).drops h2 q rx tx wf
    | wait h1 => cases h1.2
  real := fun T l rx tx => by
    obtain ⟨es, d, o, l1, rx1, h1, h2, hw, h3⟩ := (h l rx tx []).real T l rx tx
    refine ⟨es, Did.none.and d, o, l1, rx1, fun rest => .ok ⟨rfl, rfl⟩ (h1 rest), ?_, ?_, ?_⟩
    · simpa [Did.and, Did.none] using h2
    · simpa [Did.and, Did.none] using hw
    · simpa [Did.and, Did.none] using h3

theorem ite {p : Prop} [Decidable p] {a b : Code α} {x y : M α} (ha : Twin a x) (hb : Twin b y) :
    Twin (if p then a else b) (if p then x else y) := by
  split <;> assumption

/-- loops, the function on the tape being bounded. -/
theorem loop {body : σ → Code (σ ⊕ α)} {turn : σ → M (σ ⊕ α)} {L : Nat → σ → M α} (hb : ∀ s, Twin (body s) (turn s))
    (hL : ∀ n s c, L (n + 1) s c = (turn s >>= fun x => match x with
      | .inl s' => L n s'
      | .inr a => Pure.pure a) c)
    (hs : ∀ s c s' c', turn s c = (.ok (.inl s'), c') → c'.rx.length < c.rx.length) (s : σ) (fuel : Conn → Nat)
    (hf : ∀ c, c.rx.length < fuel c) : Twin (.loop body s) fun c => L (fuel c) s c := by
  have key : ∀ T s l es d r, Exec T (.loop body s) l es d r →
      (∀ o l' rest, r = .done o l' rest → ∀ rx tx wf n, (d.rx ++ rx).length < n →
        L n s (l.conn (d.rx ++ rx) tx (d.wf ++ wf)) = (o, l'.conn rx (tx ++ d.tx) wf)) ∧
      (∀ w l', r = .waiting w l' → ∀ k rx tx wf n, (d.rx ++ (w.rx k ++ rx)).length < n →
        L n s (l.conn (d.rx ++ (w.rx k ++ rx)) tx (d.wf ++ (w.wf k ++ wf))) =
          (.err (.protocol (.io k)), l'.conn rx (tx ++ d.tx) wf)) := by
    intro T s l es d r h
    change Act.Loop (fun s => Exec T (body s)) s l es d r at h
    induction h with
    | again h1 h2 ih =>
      rename_i s s' l l1 es es1 d d' r
      obtain ⟨ih1, ih2⟩ := ih
      refine ⟨fun o l' rest hr rx tx wf n hn => ?_, fun w l' hr k rx tx wf n hn => ?_⟩
      · match n, hn with
        | n + 1, hn =>
          have e1 := (hb s).sound h1 (d'.rx ++ rx) tx (d'.wf ++ wf)
          have hlt := hs _ _ _ _ e1
          simp only [Did.and, List.append_assoc] at hn ⊢
          rw [hL, SM.bind_of_ok e1]
          dsimp only
          rw [ih1 o l' rest hr rx (tx ++ d.tx) wf n, List.append_assoc]
          simp only [Loc.conn] at hlt
          omega
      · match n, hn with
        | n + 1, hn =>
          have e1 := (hb s).sound h1 (d'.rx ++ (w.rx k ++ rx)) tx (d'.wf ++ (w.wf k ++ wf))
          have hlt := hs _ _ _ _ e1
          simp only [Did.and, List.append_assoc] at hn ⊢
          rw [hL, SM.bind_of_ok e1]
          dsimp only
          rw [ih2 w l' hr k rx (tx ++ d.tx) wf n, List.append_assoc]
          simp only [Loc.conn] at hlt
          omega
    | stop h1 =>
      refine ⟨fun o l' rest hr rx tx wf n hn => ?_, fun w l' hr => (by cases hr)⟩
      cases hr
      match n, hn with
      | n + 1, hn =>
        rw [hL, SM.bind_of_ok ((hb _).sound h1 rx tx wf)]
        rfl
    | err h1 =>
      refine ⟨fun o l' rest hr rx tx wf n hn => ?_, fun w l' hr => (by cases hr)⟩
      cases hr
      match n, hn with
      | n + 1, hn => rw [hL, SM.bind_of_err ((hb _).sound h1 rx tx wf)]
    | panic h1 =>
      refine ⟨fun o l' rest hr rx tx wf n hn => ?_, fun w l' hr => (by cases hr)⟩
      cases hr
      match n, hn with
      | n + 1, hn => rw [hL, SM.bind_of_panic ((hb _).sound h1 rx tx wf)]
    | wait h1 =>
      refine ⟨fun o l' rest hr => (by cases hr), fun w l' hr k rx tx wf n hn => ?_⟩
      cases hr
      match n, hn with
      | n + 1, hn => rw [hL, SM.bind_of_err ((hb _).drops h1 k rx tx wf)]
  have comes : ∀ n T s l rx tx, rx.length < n → ∃ es d o l' rx',
      (∀ rest, Exec T (.loop body s) l (es ++ rest) d (.done o l' rest)) ∧ Fits d.rx rx rx' ∧ (∀ x ∈ d.wf, x = none) ∧
        L n s (l.conn rx tx []) = (o, l'.conn rx' (tx ++ d.tx) []) := by
    intro n
    induction n with
    | zero => intro T s l rx tx h; omega
    | succ n ih =>
      intro T s l rx tx hn
      rw [hL]
      obtain ⟨es, d, o, l1, rx1, h1, h2, hw, h3⟩ := (hb s).real T l rx tx
      match o, h1, h3 with
      | .err e, h1, h3 => exact ⟨es, d, _, l1, rx1, fun rest => .err (h1 rest), h2, hw, SM.bind_of_err h3⟩
      | .panic, h1, h3 => exact ⟨es, d, _, l1, rx1, fun rest => .panic (h1 rest), h2, hw, SM.bind_of_panic h3⟩
      | .ok (.inr a), h1, h3 => exact ⟨es, d, _, l1, rx1, fun rest => .stop (h1 rest), h2, hw, SM.bind_of_ok h3⟩
      | .ok (.inl s'), h1, h3 =>
        have hlt : rx1.length < rx.length := hs _ _ _ _ h3
        obtain ⟨es', d', o', l2, rx2, k1, k2, kw, k3⟩ := ih T s' l1 rx1 (tx ++ d.tx) (by omega)
        refine ⟨es ++ es', d.and d', o', l2, rx2, fun rest => ?_, h2.trans k2, fun x hx => ?_, ?_⟩
        · rw [List.append_assoc]
          exact .again (h1 _) (k1 rest)
        · rcases List.mem_append.1 hx with hx | hx
          · exact hw x hx
          · exact kw x hx
        · rw [SM.bind_of_ok h3]
          dsimp only
          rw [k3, Did.and, List.append_assoc]
  constructor
  case real => exact fun T l rx tx => comes _ T s l rx tx (hf (l.conn rx tx []))
  · intro T l l' es rest d o h rx tx wf
    exact (key _ _ _ _ _ _ h).1 _ _ _ rfl rx tx wf _ (hf (l.conn (d.rx ++ rx) tx (d.wf ++ wf)))
  · intro T l l' es d w h k rx tx wf
    exact (key _ _ _ _ _ _ h).2 _ _ rfl k rx tx wf _
      (hf (l.conn (d.rx ++ (w.rx k ++ rx)) tx (d.wf ++ (w.wf k ++ wf))))

/-! ### The functions -/

theorem assoc {σ ε α β γ : Type} (m : SM σ ε α) (f : α → SM σ ε β) (g : β → SM σ ε γ) :
    (m >>= f) >>= g = m >>= fun a => f a >>= g := by
  funext c
  match e : m c with
  | (.err x, c1) => rw [SM.bind_of_err e, SM.bind_of_err (SM.bind_of_err e)]
  | (.panic, c1) => rw [SM.bind_of_panic e, SM.bind_of_panic (SM.bind_of_panic e)]
  | (.ok a, c1) => rw [SM.bind_of_ok e, SM.bind_apply, SM.bind_of_ok e]; rfl

theorem readChunk (dst : Bytes) : Twin (Async.readChunk dst) (Verif.readChunk dst) := by
  unfold Async.readChunk Verif.readChunk
  refine bind (read 4) fun md => ?_
  match md with
  | [l0, l1, l2, seq] => exact ite (pure _) (bind (read _) fun ch => ite (pure _) (pure _))
  | [] => exact crash
  | [_] => exact crash
  | [_, _] => exact crash
  | [_, _, _] => exact crash
  | _ :: _ :: _ :: _ :: _ :: _ => exact crash

theorem bumpSeq : Twin (.modify fun c => { c with seqId := c.seqId + 1 })
    (SM.modify fun c => { c with seqId := c.seqId + 1 } : M Unit) := modify fun _ _ _ _ => rfl

theorem zeroSeq : Twin (.modify fun c => { c with seqId := 0 }) (SM.modify fun c => { c with seqId := 0 } : M Unit) :=
  modify fun _ _ _ _ => rfl

theorem pending (b : Bool) : Twin (.modify fun c => { c with pendingResult := b })
    (SM.modify fun c => { c with pendingResult := b } : M Unit) := modify fun _ _ _ _ => rfl

/-- one turn of `readPacketLoop`. -/
def packetTurnM (dst : Bytes) : M (Bytes ⊕ Bytes) := do
  let (readSeq, last, dst') ← Verif.readChunk dst
  let c ← SM.get
  if c.seqId ≠ readSeq then SM.fail (.protocol .outOfSync)
  else do
    SM.modify fun c => { c with seqId := c.seqId + 1 }
    if last then Pure.pure (.inr dst') else Pure.pure (.inl dst')

theorem packetTurn (dst : Bytes) : Twin (Async.packetTurn dst) (packetTurnM dst) := by
  unfold Async.packetTurn packetTurnM
  refine bind (readChunk dst) fun x => ?_
  obtain ⟨q, last, dst'⟩ := x
  refine get_bind fun l rx tx wf => ?_
  exact ite (fail _) (bind bumpSeq fun _ => ite (pure _) (pure _))

theorem readPacket : Twin Async.readPacket Verif.readPacket := by
  refine loop (turn := packetTurnM) (L := readPacketLoop) packetTurn (fun n s c => ?_) (fun s c s' c' h => ?_) []
    (fun c => c.rx.length + 1) fun c => Nat.lt_succ_self _
  · unfold packetTurnM
    rw [readPacketLoop]
    match e : Verif.readChunk s c with
    | (.err x, c1) => rw [SM.bind_of_err e, SM.bind_of_err (SM.bind_of_err e)]
    | (.panic, c1) => rw [SM.bind_of_panic e, SM.bind_of_panic (SM.bind_of_panic e)]
    | (.ok (q, last, dst'), c1) =>
      rw [SM.bind_of_ok e, assoc, SM.bind_of_ok e]
      dsimp only
      rw [assoc]
      simp only [SM.get_bind_apply]
      split
      · rfl
      · rw [assoc]
        simp only [SM.modify_bind_apply]
        split <;> rfl
  · unfold packetTurnM at h
    obtain ⟨⟨q, last, dst'⟩, c1, h1, h2⟩ := SM.bind_eq_ok.1 h
    obtain ⟨chunk, -, -, hrx, -, -⟩ := readChunk_eq_ok h1
    simp only [SM.get_bind_apply] at h2
    split at h2
    · cases h2
    · simp only [SM.modify_bind_apply] at h2
      split at h2 <;> cases h2
      rw [hrx]
      simp
      omega

theorem writeChunks (bs : Bytes) : Twin (Async.writeChunks bs) (Verif.writeChunks bs) := by
  induction h : bs.length using Nat.strongRecOn generalizing bs with
  | ind n ih =>
    unfold Async.writeChunks Verif.writeChunks
    split
    · exact pure _
    · rename_i hne
      refine get_bind fun l rx tx wf => ?_
      refine bind (write _) fun _ => bind (write _) fun _ => bind bumpSeq fun _ => ?_
      have : 0 < bs.length := List.length_pos_iff.mpr hne
      refine ih _ ?_ _ rfl
      simp only [List.length_drop, MAX_PAYLOAD_LEN]
      omega

theorem writePacket (bs : Bytes) : Twin (Async.writePacket bs) (Verif.writePacket bs) := by
  unfold Async.writePacket Verif.writePacket
  refine bind (writeChunks _) fun _ => ite ?_ (pure _)
  exact get_bind fun l rx tx wf => bind (write _) fun _ => bumpSeq

theorem decodeResponse (p : Bytes) : Twin (Async.decodeResponse p) (Verif.decodeResponse p) := by
  unfold Async.decodeResponse Verif.decodeResponse
  refine get_bind fun l rx tx wf => ?_
  split
  · exact fail _
  · exact ite (bind (liftP _) fun _ => pure _) (ite (bind (liftP _) fun _ => pure _) (fail _))

theorem readResponse : Twin Async.readResponse Verif.readResponse := bind readPacket fun p => decodeResponse p

theorem okOrServerError (r : Except ErrPacket OkPacket) :
    Twin (Async.okOrServerError r) (Verif.okOrServerError r) := by
  unfold Async.okOrServerError Verif.okOrServerError
  split
  · exact pure _
  · exact fail _

/-- one turn of `cleanupLoop`. -/
def cleanupTurnM (_ : Unit) : M (Unit ⊕ OkPacket) := do
  let packet ← Verif.readPacket
  let c ← SM.get
  let last ← SM.ofOut (isLast c.data.capabilities packet)
  if last then do
    SM.modify fun c => { c with pendingResult := false }
    let ok ← Verif.liftP (runP (OkPacket.readEof c.data.capabilities) packet)
    Pure.pure (.inr ok)
  else Pure.pure (.inl ())

theorem cleanupTurn (u : Unit) : Twin (Async.cleanupTurn u) (cleanupTurnM u) := by
  unfold Async.cleanupTurn cleanupTurnM
  refine bind readPacket fun p => get_bind fun l rx tx wf => bind (out _) fun b => ?_
  exact ite (bind (pending _) fun _ => bind (liftP _) fun _ => pure _) (pure _)

theorem cleanupLoop : Twin (.loop Async.cleanupTurn ()) fun c => Verif.cleanupLoop (c.rx.length + 1) c := by
  refine loop (turn := cleanupTurnM) (L := fun n _ => Verif.cleanupLoop n) cleanupTurn (fun n s c => ?_)
    (fun s c s' c' h => ?_) () (fun c => c.rx.length + 1) fun c => Nat.lt_succ_self _
  · unfold cleanupTurnM
    rw [Verif.cleanupLoop]
    match e : Verif.readPacket c with
    | (.err x, c1) => rw [SM.bind_of_err e, SM.bind_of_err (SM.bind_of_err e)]
    | (.panic, c1) => rw [SM.bind_of_panic e, SM.bind_of_panic (SM.bind_of_panic e)]
    | (.ok p, c1) =>
      rw [SM.bind_of_ok e, assoc, SM.bind_of_ok e, assoc]
      simp only [SM.get_bind_apply]
      rw [assoc]
      match e2 : SM.ofOut (isLast c1.data.capabilities p) c1 with
      | (.err x, c2) => rw [SM.bind_of_err e2, SM.bind_of_err e2]
      | (.panic, c2) => rw [SM.bind_of_panic e2, SM.bind_of_panic e2]
      | (.ok last, c2) =>
        rw [SM.bind_of_ok e2, SM.bind_of_ok e2]
        split
        · rw [assoc]
          simp only [SM.modify_bind_apply]
          rw [assoc]
          match e3 : Verif.liftP (runP (OkPacket.readEof c1.data.capabilities) p) { c2 with pendingResult := false } with
          | (.err x, c3) => rw [SM.bind_of_err e3]
          | (.panic, c3) => rw [SM.bind_of_panic e3]
          | (.ok q, c3) =>
            rw [SM.bind_of_ok e3]
            rfl
        · rfl
  · unfold cleanupTurnM at h
    obtain ⟨p, c1, h1, h2⟩ := SM.bind_eq_ok.1 h
    have := readPacket_shrinks h1
    simp only [SM.get_bind_apply] at h2
    obtain ⟨b, c2, h3, h4⟩ := SM.bind_eq_ok.1 h2
    obtain rfl : c1 = c2 := (Prod.mk.inj h3).2
    split at h4
    · simp only [SM.modify_bind_apply] at h4
      obtain ⟨q, c3, h5, h6⟩ := SM.bind_eq_ok.1 h4
      cases h6
    · cases h4
      exact this

theorem cleanup : Twin Async.cleanup Verif.cleanup := by
  have e : Verif.cleanup = (SM.get >>= fun c => if c.pendingResult then
      ((fun c => Verif.cleanupLoop (c.rx.length + 1) c : M OkPacket) >>= fun ok => Pure.pure (some ok)) else
        Pure.pure none) := by
    funext c
    unfold Verif.cleanup
    simp only [SM.get_bind_apply]
    split <;> rfl
  rw [e]
  exact get_bind fun l rx tx wf => ite (bind cleanupLoop fun _ => pure _) (pure _)

theorem executeCommand (cmd : Command) (d : Bytes) :
    Twin (Async.executeCommand cmd d) (Verif.executeCommand cmd d) :=
  bind cleanup fun _ => bind zeroSeq fun _ => writePacket _

theorem writeCommand (bs : Bytes) : Twin (Async.writeCommand bs) (Verif.writeCommand bs) :=
  bind cleanup fun _ => bind zeroSeq fun _ => writePacket _

theorem readColumnDefs (n : Nat) : Twin (Async.readColumnDefs n) (Verif.readColumnDefs n) := by
  induction n with
  | zero => exact pure _
  | succ n ih => exact bind readPacket fun _ => bind (liftP _) fun _ => bind ih fun _ => pure _

theorem readColumns (n : Nat) : Twin (Async.readColumns n) (Verif.readColumns n) := ite crash (readColumnDefs n)

theorem readSet : Twin Async.readSet RSet.read := by
  unfold Async.readSet RSet.read
  refine bind readPacket fun p => get_bind fun l rx tx wf => ?_
  split
  · refine ite (bind (decodeResponse _) fun _ => bind (okOrServerError _) fun _ => pure _) (ite crash (ite ?_ ?_))
    · exact bind (liftP _) fun _ => fail _
    · exact bind (pending _) fun _ => bind (liftP _) fun _ => bind (readColumns _) fun _ => pure _
  · exact bind (pending _) fun _ => bind (liftP _) fun _ => bind (readColumns _) fun _ => pure _

theorem next {R : Type} (rd : RowReader R) (rs : RSet) : Twin (Async.next rd rs) (rs.next rd) := by
  unfold Async.next RSet.next
  refine ite (pure _) (bind readPacket fun p => get_bind fun l rx tx wf => bind (out _) fun b => ?_)
  refine ite ?_ (bind (liftP _) fun _ => bind (liftParse _) fun _ => pure _)
  exact bind (liftP _) fun _ => bind (pending _) fun _ => pure _

/-- one turn of `collectLoop`. -/
def collectTurnM {R : Type} (rd : RowReader R) (x : RSet × List R) : M ((RSet × List R) ⊕ (RSet × List R)) := do
  let (rs', r?) ← x.1.next rd
  match r? with
  | none => Pure.pure (.inr (rs', x.2))
  | some r => Pure.pure (.inl (rs', x.2 ++ [r]))

theorem collectTurn {R : Type} (rd : RowReader R) (x : RSet × List R) :
    Twin (Async.collectTurn rd x) (collectTurnM rd x) := by
  unfold Async.collectTurn collectTurnM
  refine bind (next rd x.1) fun y => ?_
  obtain ⟨rs', r?⟩ := y
  cases r? with
  | none => exact pure _
  | some r => exact pure _

theorem bind_pure' {α : Type} (m : M α) : (m >>= fun a => Pure.pure a) = m := by
  funext c
  match e : m c with
  | (.err x, c1) => rw [SM.bind_of_err e]
  | (.panic, c1) => rw [SM.bind_of_panic e]
  | (.ok p, c1) => rw [SM.bind_of_ok e]; rfl

theorem collect {R : Type} (rd : RowReader R) (rs : RSet) : Twin (Async.collect rd rs) (rs.collect rd) := by
  have e : rs.collect rd = fun c => (fun n (x : RSet × List R) => (RSet.collectLoop rd n x.1 >>= fun y =>
      Pure.pure (y.1, x.2 ++ y.2) : M (RSet × List R))) (c.rx.length + 2) (rs, []) c := by
    funext c
    unfold RSet.collect
    dsimp only
    simp only [List.nil_append]
    rw [show (RSet.collectLoop rd (c.rx.length + 2) rs >>= fun y => Pure.pure (y.1, y.2) : M (RSet × List R)) =
      RSet.collectLoop rd (c.rx.length + 2) rs from bind_pure' _]
  rw [e]
  refine loop (turn := collectTurnM rd) (L := fun n (x : RSet × List R) => (RSet.collectLoop rd n x.1 >>= fun y =>
      Pure.pure (y.1, x.2 ++ y.2) : M (RSet × List R))) (collectTurn rd) (fun n s c => ?_)
    (fun s c s' c' h => ?_) (rs, []) (fun c => c.rx.length + 2) fun c => by omega
  · obtain ⟨rs, acc⟩ := s
    dsimp only
    unfold collectTurnM
    rw [RSet.collectLoop]
    match e : RSet.next rd rs c with
    | (.err x, c1) => rw [SM.bind_of_err (SM.bind_of_err e), SM.bind_of_err (SM.bind_of_err e)]
    | (.panic, c1) => rw [SM.bind_of_panic (SM.bind_of_panic e), SM.bind_of_panic (SM.bind_of_panic e)]
    | (.ok (rs', none), c1) =>
      rw [SM.bind_of_ok (show _ = (Out.ok (rs', []), c1) by rw [SM.bind_of_ok e]; rfl),
        SM.bind_of_ok (show _ = (Out.ok (.inr (rs', acc)), c1) by rw [SM.bind_of_ok e]; rfl)]
      simp
    | (.ok (rs', some r), c1) =>
      rw [assoc, SM.bind_of_ok e]
      refine Eq.trans ?_ (SM.bind_of_ok (a := (Sum.inl (rs', acc ++ [r]) : (RSet × List R) ⊕ (RSet × List R)))
        (s' := c1) (by rw [SM.bind_of_ok e]; rfl)).symm
      dsimp only
      rw [assoc]
      match e2 : RSet.collectLoop rd n rs' c1 with
      | (.err x, c2) => rw [SM.bind_of_err e2, SM.bind_of_err e2]
      | (.panic, c2) => rw [SM.bind_of_panic e2, SM.bind_of_panic e2]
      | (.ok (rs'', xs), c2) =>
        rw [SM.bind_of_ok e2, SM.bind_of_ok e2]
        simp
  · obtain ⟨rs, acc⟩ := s
    unfold collectTurnM at h
    obtain ⟨⟨rs', r?⟩, c1, h1, h2⟩ := SM.bind_eq_ok.1 h
    cases r? with
    | none => cases h2
    | some r =>
      cases h2
      exact next_shrinks h1

theorem drain {R : Type} (rd : RowReader R) (rs : RSet) : Twin (Async.drain rd rs) (rs.drain rd) :=
  bind (collect rd rs) fun _ => pure _

theorem finish {R : Type} (rd : RowReader R) (rs : RSet) : Twin (Async.finish rd rs) (rs.finish rd) := by
  unfold Async.finish RSet.finish
  match rs.okPacket with
  | some ok => exact pure _
  | none =>
    refine bind (drain rd rs) fun rs' => ?_
    match rs'.okPacket with
    | some ok => exact pure _
    | none => exact crash

theorem query (sql : Str) : Twin (Async.query sql) (Verif.query sql) := bind (executeCommand _ _) fun _ => readSet

theorem executeQuery (sql : Str) : Twin (Async.executeQuery sql) (Verif.executeQuery sql) :=
  bind (executeCommand _ _) fun _ => bind readResponse fun r => okOrServerError r

theorem disconnect : Twin Async.disconnect Verif.disconnect := executeCommand _ _

theorem skipPackets (n : Nat) : Twin (Async.skipPackets n) (Verif.skipPackets n) := by
  induction n with
  | zero => exact pure _
  | succ n ih => exact bind readPacket fun _ => ih

theorem prepareStatement (sql : Str) : Twin (Async.prepareStatement sql) (Verif.prepareStatement sql) := by
  unfold Async.prepareStatement Verif.prepareStatement
  refine bind (executeCommand _ _) fun _ => bind readPacket fun p => get_bind fun l rx tx wf => ?_
  split
  · refine ite (bind (liftP _) fun _ => bind (skipPackets _) fun _ => pure _) (ite ?_ (fail _))
    exact bind (liftP _) fun _ => fail _
  · exact fail _

theorem sendPieces (id : UInt32) (i : Nat) (ps : List Bytes) :
    Twin (Async.sendPieces id i ps) (Verif.sendPieces id i ps) := by
  induction ps with
  | nil => exact pure _
  | cons p ps ih => exact bind (writeCommand _) fun _ => ih

theorem sendLongData (id : UInt32) (i : Nat) (vs : List Value) :
    Twin (Async.sendLongData id i vs) (Verif.sendLongData id i vs) := by
  induction vs generalizing i with
  | nil => exact pure _
  | cons v vs ih => exact bind (sendPieces _ _ _) fun _ => ih _

theorem sendExecute (id : UInt32) (vs : List Value) : Twin (Async.sendExecute id vs) (Verif.sendExecute id vs) :=
  bind (out _) fun _ => ite (bind (sendLongData _ _ _) fun _ => writeCommand _) (writeCommand _)

theorem stmtQuery (p : Prepared) (vs : List Value) : Twin (Async.stmtQuery p vs) (p.query vs) :=
  ite (fail _) (bind (sendExecute _ _) fun _ => readSet)

theorem stmtExecute (p : Prepared) (vs : List Value) : Twin (Async.stmtExecute p vs) (p.execute vs) :=
  ite (fail _) (bind (sendExecute _ _) fun _ => bind readResponse fun r => okOrServerError r)

theorem storeLimit (n : Option Nat) : Twin (Async.storeLimit n) (Verif.storeLimit n) := by
  cases n with
  | none => exact pure _
  | some n => exact modify fun _ _ _ _ => rfl

theorem askLimit (fp : FloatParse) : Twin (Async.askLimit fp) (Verif.askLimit fp) := by
  unfold Async.askLimit Verif.askLimit
  refine bind (query _) fun rs => bind (next _ _) fun x => ?_
  obtain ⟨rs', row?⟩ := x
  cases row? with
  | none => exact pure _
  | some row => exact bind (out _) fun n => storeLimit n

theorem readSettings (fp : FloatParse) : Twin (Async.readSettings fp) (Verif.readSettings fp) := by
  unfold Async.readSettings Verif.readSettings
  exact get_bind fun l rx tx wf => ite (askLimit fp) (pure _)

theorem handleHandshake (alnum : Char → Bool) : Twin (Async.handleHandshake alnum) (Verif.handleHandshake alnum) := by
  unfold Async.handleHandshake Verif.handleHandshake
  refine bind readPacket fun p => ?_
  match runP Handshake.deserialize p with
  | .err _ => exact crash
  | .panic => exact crash
  | .ok hs =>
    dsimp only
    match parseServerVersion alnum hs.serverVersion with
    | .err _ => exact crash
    | .panic => exact crash
    | .ok v => exact modify fun _ _ _ _ => rfl

theorem doHandshakeResponse (cr : Crypto) : Twin (Async.doHandshakeResponse cr) (Verif.doHandshakeResponse cr) := by
  unfold Async.doHandshakeResponse Verif.doHandshakeResponse
  exact get_bind fun l rx tx wf => bind (out _) fun d => writePacket _

theorem authFailure (p : Bytes) : Twin (Async.authFailure p : Code α) (Verif.authFailure p) := by
  unfold Async.authFailure Verif.authFailure
  refine get_bind fun l rx tx wf => ?_
  match h : runP (ErrPacket.deserialize l.data.capabilities) p with
  | .ok e => simpa [Loc.conn, h] using fail _
  | .err _ => simpa [Loc.conn, h] using fail _
  | .panic => simpa [Loc.conn, h] using crash

theorem fetchKey : Twin Async.fetchKey Verif.fetchKey := by
  unfold Async.fetchKey Verif.fetchKey
  refine get_bind fun l rx tx wf => ?_
  match h : l.data.serverKey with
  | some k => simpa [Loc.conn, h] using pure k
  | none =>
    dsimp only
    refine bind (writePacket _) fun _ => bind readPacket fun p => get_bind fun l rx tx wf => ?_
    split
    · exact fail _
    · refine ite (bind (out _) fun k => bind (modify fun _ _ _ _ => rfl) fun _ => pure _) (ite ?_ (fail _))
      exact bind (liftP _) fun _ => fail _

theorem sendPassword (cr : Crypto) : Twin (Async.sendPassword cr) (Verif.sendPassword cr) := by
  unfold Async.sendPassword Verif.sendPassword
  refine get_bind fun l rx tx wf => ite (writePacket _) (bind fetchKey fun k => get_bind fun l' rx' tx' wf' => ?_)
  exact bind (out _) fun x => bind (out _) fun enc => writePacket _

theorem readVerdict : Twin Async.readVerdict Verif.readVerdict := by
  unfold Async.readVerdict Verif.readVerdict
  refine bind readPacket fun p => get_bind fun l rx tx wf => ?_
  split
  · exact fail _
  · exact ite (pure _) (ite (bind (liftP _) fun _ => fail _) (fail _))

theorem switchAuth (cr : Crypto) (sw : AuthSwitch) : Twin (Async.switchAuth cr sw) (Verif.switchAuth cr sw) := by
  unfold Async.switchAuth Verif.switchAuth
  refine get_bind fun l rx tx wf => ite crash ?_
  refine bind (modify fun _ _ _ _ => rfl) fun _ => get_bind fun l' rx' tx' wf' => bind (out _) fun d => ?_
  cases d with
  | some d => exact writePacket _
  | none => exact writePacket _

theorem continueAuth (cr : Crypto) (fuel : Nat) :
    Twin (Async.continueAuth cr fuel) (Verif.continueAuth cr fuel) := by
  induction fuel with
  | zero => exact crash
  | succ fuel ih =>
    unfold Async.continueAuth Verif.continueAuth
    refine get_bind fun l rx tx wf => bind readPacket fun p => get_bind fun l' rx' tx' wf' => ?_
    cases p with
    | nil => exact authFailure _
    | cons b r =>
      refine ite (pure _) (ite ?_ (ite ?_ (authFailure _)))
      · cases r with
        | nil => exact fail _
        | cons s r =>
          refine ite (bind readPacket fun _ => pure _) (ite ?_ (fail _))
          exact bind (sendPassword cr) fun _ => readVerdict
      · exact bind (liftP _) fun sw => bind (switchAuth cr sw) fun _ => ih

theorem login (cr : Crypto) (alnum : Char → Bool) : Twin (Async.login cr alnum) (Verif.login cr alnum) :=
  bind (handleHandshake _) fun _ => bind (doHandshakeResponse _) fun _ => continueAuth _ _

theorem connect (cr : Crypto) (alnum : Char → Bool) (fp : FloatParse) :
    Twin (Async.connect cr alnum fp) (Verif.connect cr alnum fp) :=
  bind (login _ _) fun _ => readSettings fp

theorem plainValues (fs : List (Str × Option (Out SerializeError Value))) :
    Twin (Async.plainValues fs) (Verif.plainValues fs) := by
  induction fs with
  | nil => exact pure _
  | cons x fs ih =>
    obtain ⟨n, x⟩ := x
    cases x with
    | none => exact ih
    | some x => exact bind (liftS _) fun _ => bind ih fun _ => pure _

theorem memberValues (f : Str) (ms : List (Str × Out SerializeError Value)) :
    Twin (Async.memberValues f ms) (Verif.memberValues f ms) := by
  induction ms with
  | nil => exact pure _
  | cons x ms ih => exact bind (liftS _) fun _ => bind ih fun _ => pure _

theorem structValues (fs : List (Str × Option (List (Str × Out SerializeError Value)))) :
    Twin (Async.structValues fs) (Verif.structValues fs) := by
  induction fs with
  | nil => exact pure _
  | cons x fs ih =>
    obtain ⟨n, x⟩ := x
    cases x with
    | none => exact ih
    | some x => exact bind (memberValues _ _) fun _ => bind ih fun _ => pure _

theorem executeInsert (t : Str) (vs : List NamedValue) : Twin (Async.executeInsert t vs) (Verif.executeInsert t vs) :=
  bind (prepareStatement _) fun _ => bind (stmtExecute _ _) fun _ => pure _

mutual
theorem insert : ∀ m : ActiveModel, Twin (Async.insert m) m.insert
  | .mk t _ plain structs refs => by
    unfold Async.insert ActiveModel.insert
    exact bind (plainValues _) fun _ => bind (structValues _) fun _ => bind (refValues refs) fun _ => executeInsert _ _

theorem refValues : ∀ r : ActiveRefs, Twin (Async.refValues r) (Verif.refValues r)
  | .nil => by unfold Async.refValues Verif.refValues; exact pure _
  | .set f v r => by
    unfold Async.refValues Verif.refValues
    exact bind (refValues r) fun _ => pure _
  | .insert f m r => by
    unfold Async.refValues Verif.refValues
    exact bind (insert m) fun _ => bind (refValues r) fun _ => pure _
  | .unset _ r => by
    unfold Async.refValues Verif.refValues
    exact refValues r
end

theorem intoValues (m : ActiveModel) : Twin (Async.intoValues m) m.intoValues := by
  cases m
  exact bind (plainValues _) fun _ => bind (structValues _) fun _ => bind (refValues _) fun _ => pure _

theorem update (id : Value) (primary : Str) (m : ActiveModel) :
    Twin (Async.update id primary m) (m.update id primary) :=
  bind (intoValues m) fun _ => ite (bind (prepareStatement _) fun _ => bind (stmtExecute _ _) fun _ => pure _) (pure _)

/-- one turn of `loadLoop`. -/
def loadTurnM (fp : FloatParse) (ms : List MigList) (x : RSet × (Version → List Str)) :
    M ((RSet × (Version → List Str)) ⊕ (Version → List Str)) := do
  let (rs', k?) ← x.1.next (textReader fp migrationOf)
  match k? with
  | none => Pure.pure (.inr x.2)
  | some k => if isKnown ms k then Pure.pure (.inl (rs', insertApplied x.2 k)) else SM.crash

theorem loadTurn (fp : FloatParse) (ms : List MigList) (x : RSet × (Version → List Str)) :
    Twin (Async.loadTurn fp ms x) (loadTurnM fp ms x) := by
  unfold Async.loadTurn loadTurnM
  refine bind (next _ x.1) fun y => ?_
  obtain ⟨rs', k?⟩ := y
  cases k? with
  | none => exact pure _
  | some k => exact ite (pure _) crash

theorem loadLoop (fp : FloatParse) (ms : List MigList) (rs : RSet) (a : Version → List Str) :
    Twin (.loop (Async.loadTurn fp ms) (rs, a)) fun c => Verif.loadLoop fp ms (c.rx.length + 2) rs a c := by
  refine loop (turn := loadTurnM fp ms) (L := fun n x => Verif.loadLoop fp ms n x.1 x.2) (loadTurn fp ms)
    (fun n s c => ?_) (fun s c s' c' h => ?_) (rs, a) (fun c => c.rx.length + 2) fun c => by omega
  · obtain ⟨rs, a⟩ := s
    dsimp only
    unfold loadTurnM
    rw [Verif.loadLoop]
    match e : RSet.next (textReader fp migrationOf) rs c with
    | (.err x, c1) => rw [SM.bind_of_err e, SM.bind_of_err (SM.bind_of_err e)]
    | (.panic, c1) => rw [SM.bind_of_panic e, SM.bind_of_panic (SM.bind_of_panic e)]
    | (.ok (rs', none), c1) =>
      rw [SM.bind_of_ok e, assoc, SM.bind_of_ok e]
      rfl
    | (.ok (rs', some k), c1) =>
      rw [SM.bind_of_ok e, assoc, SM.bind_of_ok e]
      dsimp only
      split <;> rfl
  · obtain ⟨rs, a⟩ := s
    unfold loadTurnM at h
    obtain ⟨⟨rs', k?⟩, c1, h1, h2⟩ := SM.bind_eq_ok.1 h
    cases k? with
    | none => cases h2
    | some k =>
      have : c' = c1 := by
        dsimp only at h2
        split at h2 <;> cases h2
        rfl
      rw [this]
      exact next_shrinks h1

theorem loadTable (fp : FloatParse) (ms : List MigList) : Twin (Async.loadTable fp ms) (Verif.loadTable fp ms) :=
  bind (query _) fun rs => loadLoop fp ms rs fun _ => []

theorem ensureTable (fp : FloatParse) : Twin (Async.ensureTable fp) (Verif.ensureTable fp) :=
  bind (query _) fun _ => bind (collect _ _) fun _ => ite (bind (executeQuery _) fun _ => pure _) (pure _)

theorem migratorOpen (debug : Bool) (fp : FloatParse) (ms : List MigList) :
    Twin (Async.migratorOpen debug fp ms) (Verif.migratorOpen debug fp ms) :=
  ite crash (bind (ensureTable fp) fun _ => loadTable fp ms)

/-! ### without overflow checks -/

theorem handleHandshakeRel (alnum : Char → Bool) : Twin (Async.handleHandshakeRel alnum) (Verif.handleHandshakeRel alnum) := by
  unfold Async.handleHandshakeRel Verif.handleHandshakeRel
  refine bind readPacket fun p => ?_
  match runP Handshake.deserializeRel p with
  | .err _ => exact crash
  | .panic => exact crash
  | .ok hs =>
    dsimp only
    match parseServerVersion alnum hs.serverVersion with
    | .err _ => exact crash
    | .panic => exact crash
    | .ok v => exact modify fun _ _ _ _ => rfl

theorem loginRel (cr : Crypto) (alnum : Char → Bool) : Twin (Async.loginRel cr alnum) (Verif.loginRel cr alnum) :=
  bind (handleHandshakeRel _) fun _ => bind (doHandshakeResponse _) fun _ => continueAuth _ _

theorem askLimitRel (fp : FloatParse) : Twin (Async.askLimitRel fp) (Verif.askLimitRel fp) := by
  unfold Async.askLimitRel Verif.askLimitRel
  refine bind (query _) fun rs => bind (next _ _) fun x => ?_
  obtain ⟨rs', row?⟩ := x
  cases row? with
  | none => exact pure _
  | some row => exact bind (out _) fun n => storeLimit n

theorem readSettingsRel (fp : FloatParse) : Twin (Async.readSettingsRel fp) (Verif.readSettingsRel fp) := by
  unfold Async.readSettingsRel Verif.readSettingsRel
  exact get_bind fun l rx tx wf => ite (askLimitRel fp) (pure _)

theorem connectRel (cr : Crypto) (alnum : Char → Bool) (fp : FloatParse) :
    Twin (Async.connectRel cr alnum fp) (Verif.connectRel cr alnum fp) :=
  bind (loginRel _ _) fun _ => readSettingsRel fp

/-- one turn of `loadLoopRel`. -/
def loadTurnMRel (fp : FloatParse) (ms : List MigList) (x : RSet × (Version → List Str)) :
    M ((RSet × (Version → List Str)) ⊕ (Version → List Str)) := do
  let (rs', k?) ← x.1.next (textReaderRel fp migrationOf)
  match k? with
  | none => Pure.pure (.inr x.2)
  | some k => if isKnown ms k then Pure.pure (.inl (rs', insertApplied x.2 k)) else SM.crash

theorem loadTurnRel (fp : FloatParse) (ms : List MigList) (x : RSet × (Version → List Str)) :
    Twin (Async.loadTurnRel fp ms x) (loadTurnMRel fp ms x) := by
  unfold Async.loadTurnRel loadTurnMRel
  refine bind (next _ x.1) fun y => ?_
  obtain ⟨rs', k?⟩ := y
  cases k? with
  | none => exact pure _
  | some k => exact ite (pure _) crash

theorem loadLoopRel (fp : FloatParse) (ms : List MigList) (rs : RSet) (a : Version → List Str) :
    Twin (.loop (Async.loadTurnRel fp ms) (rs, a)) fun c => Verif.loadLoopRel fp ms (c.rx.length + 2) rs a c := by
  refine loop (turn := loadTurnMRel fp ms) (L := fun n x => Verif.loadLoopRel fp ms n x.1 x.2) (loadTurnRel fp ms)
    (fun n s c => ?_) (fun s c s' c' h => ?_) (rs, a) (fun c => c.rx.length + 2) fun c => by omega
  · obtain ⟨rs, a⟩ := s
    dsimp only
    unfold loadTurnMRel
    rw [Verif.loadLoopRel]
    match e : RSet.next (textReaderRel fp migrationOf) rs c with
    | (.err x, c1) => rw [SM.bind_of_err e, SM.bind_of_err (SM.bind_of_err e)]
    | (.panic, c1) => rw [SM.bind_of_panic e, SM.bind_of_panic (SM.bind_of_panic e)]
    | (.ok (rs', none), c1) =>
      rw [SM.bind_of_ok e, assoc, SM.bind_of_ok e]
      rfl
    | (.ok (rs', some k), c1) =>
      rw [SM.bind_of_ok e, assoc, SM.bind_of_ok e]
      dsimp only
      split <;> rfl
  · obtain ⟨rs, a⟩ := s
    unfold loadTurnMRel at h
    obtain ⟨⟨rs', k?⟩, c1, h1, h2⟩ := SM.bind_eq_ok.1 h
    cases k? with
    | none => cases h2
    | some k =>
      have : c' = c1 := by
        dsimp only at h2
        split at h2 <;> cases h2
        rfl
      rw [this]
      exact next_shrinks h1

theorem loadTableRel (fp : FloatParse) (ms : List MigList) : Twin (Async.loadTableRel fp ms) (Verif.loadTableRel fp ms) :=
  bind (query _) fun rs => loadLoopRel fp ms rs fun _ => []

theorem ensureTableRel (fp : FloatParse) : Twin (Async.ensureTableRel fp) (Verif.ensureTableRel fp) :=
  bind (query _) fun _ => bind (collect _ _) fun _ => ite (bind (executeQuery _) fun _ => pure _) (pure _)

theorem migratorOpenRel (fp : FloatParse) (ms : List MigList) :
    Twin (Async.migratorOpenRel fp ms) (Verif.migratorOpenRel fp ms) :=
  bind (ensureTableRel fp) fun _ => loadTableRel fp ms

end Twin

theorem OnTape.bind {α β : Type} {p : Code β} {m : M β} {k : β → Code α} {f : β → M α} (hp : OnTape p m)
    (hk : ∀ b, OnTape (k b) (f b)) : OnTape (p >>= k) (m >>= f) := by
  intro T l l' es rest d o h rx tx wf
  cases h with
  | ok h1 h2 =>
    rename_i l1 es1 d d' b
    have e1 := hp h1 (d'.rx ++ rx) tx (d'.wf ++ wf)
    have e2 := hk b h2 rx (tx ++ d.tx) wf
    simp only [Did.and, List.append_assoc]
    rw [SM.bind_of_ok e1, e2, List.append_assoc]
  | err h1 => exact SM.bind_of_err (hp h1 rx tx wf)
  | panic h1 => exact SM.bind_of_panic (hp h1 rx tx wf)

theorem OnTape.attempt {α : Type} {p : Code α} {m : M α} (hp : OnTape p m) : OnTape (.attempt p) (SM.attempt m) := by
  intro T l l' es rest d o h rx tx wf
  unfold SM.attempt
  cases h with
  | ok h1 => rw [hp h1 rx tx wf]
  | err h1 => rw [hp h1 rx tx wf]
  | panic h1 => rw [hp h1 rx tx wf]

theorem Real.bind {α β : Type} {p : Code β} {m : M β} {k : β → Code α} {f : β → M α} (hp : Real p m)
    (hk : ∀ b, Real (k b) (f b)) : Real (p >>= k) (m >>= f) := by
  intro T l rx tx
  obtain ⟨es, d, o, l1, rx1, h1, h2, hw, h3⟩ := hp T l rx tx
  match o, h1, h3 with
  | .err e, h1, h3 => exact ⟨es, d, _, l1, rx1, fun rest => .err (h1 rest), h2, hw, SM.bind_of_err h3⟩
  | .panic, h1, h3 => exact ⟨es, d, _, l1, rx1, fun rest => .panic (h1 rest), h2, hw, SM.bind_of_panic h3⟩
  | .ok b, h1, h3 =>
    obtain ⟨es', d', o', l2, rx2, k1, k2, kw, k3⟩ := hk b T l1 rx1 (tx ++ d.tx)
    refine ⟨es ++ es', d.and d', o', l2, rx2, fun rest => ?_, h2.trans k2, fun x hx => ?_, ?_⟩
    · rw [List.append_assoc]
      exact .ok (h1 _) (k1 rest)
    · rcases List.mem_append.1 hx with hx | hx
      · exact hw x hx
      · exact kw x hx
    · rw [SM.bind_of_ok h3, k3, Did.and, List.append_assoc]

theorem Real.attempt {α : Type} {p : Code α} {m : M α} (hp : Real p m) : Real (.attempt p) (SM.attempt m) := by
  intro T l rx tx
  obtain ⟨es, d, o, l1, rx1, h1, h2, hw, h3⟩ := hp T l rx tx
  unfold SM.attempt
  rw [h3]
  match o, h1 with
  | .err e, h1 => exact ⟨es, d, _, l1, rx1, fun rest => .err (h1 rest), h2, hw, rfl⟩
  | .panic, h1 => exact ⟨es, d, _, l1, rx1, fun rest => .panic (h1 rest), h2, hw, rfl⟩
  | .ok a, h1 => exact ⟨es, d, _, l1, rx1, fun rest => .ok (h1 rest), h2, hw, rfl⟩

theorem Real.one {R : Type} (rd : RowReader R) (rs : RSet) : Real (Async.one rd rs) (rs.one rd) := by
  unfold Async.one RSet.one
  refine Real.bind (Real.attempt (Twin.next rd rs).real) fun x => ?_
  match x with
  | .ok (rs', r?) => exact (Twin.bind (Twin.drain rd rs') fun _ => Twin.pure _).real
  | .error e => exact (Twin.bind (Twin.drain rd rs) fun _ => Twin.fail _).real

theorem OnTape.one {R : Type} (rd : RowReader R) (rs : RSet) : OnTape (Async.one rd rs) (rs.one rd) := by
  unfold Async.one RSet.one
  refine OnTape.bind (OnTape.attempt fun h => (Twin.next rd rs).sound h) fun x => ?_
  match x with
  | .ok (rs', r?) => exact fun {_ _ _ _ _ _ _} h => (Twin.bind (Twin.drain rd rs') fun _ => Twin.pure _).sound h
  | .error e => exact fun {_ _ _ _ _ _ _} h => (Twin.bind (Twin.drain rd rs) fun _ => Twin.fail _).sound h

theorem Twin.call {α : Type} {p : Code α} {m : M α} (h : Spec.Future p m) : Twin p m := by
  cases h with
  | connect cr alnum fp => exact Twin.connect cr alnum fp
  | disconnect => exact Twin.disconnect
  | query sql => exact Twin.query sql
  | executeQuery sql => exact Twin.executeQuery sql
  | prepare sql => exact Twin.prepareStatement sql
  | stmtQuery p vs => exact Twin.stmtQuery p vs
  | stmtExecute p vs => exact Twin.stmtExecute p vs
  | next rd rs => exact Twin.next rd rs
  | collect rd rs => exact Twin.collect rd rs
  | finish rd rs => exact Twin.finish rd rs
  | insert m => exact Twin.insert m
  | update id primary m => exact Twin.update id primary m
  | migrator debug fp ms => exact Twin.migratorOpen debug fp ms
  | connectRel cr alnum fp => exact Twin.connectRel cr alnum fp
  | migratorRel fp ms => exact Twin.migratorOpenRel fp ms

/-! ### Running -/

theorem pollLoop_exec {σ α : Type} {body : σ → Loc → List Poll → Option (Did × Ran (σ ⊕ α))} {act : σ → Act (σ ⊕ α)}
    (hb : ∀ s l es d r, body s l es = some (d, r) → act s l es d r) (n : Nat) (s : σ) (l : Loc) (es : List Poll)
    (d : Did) (r : Ran α) (h : pollLoop body n s l es = some (d, r)) : Act.Loop act s l es d r := by
  induction n generalizing s l es d r with
  | zero => cases h
  | succ n ih =>
    unfold pollLoop at h
    split at h
    · rename_i d1 s' l1 es1 h1
      split at h
      · rename_i d' r' h2
        cases h
        exact .again (hb _ _ _ _ _ h1) (ih _ _ _ _ _ h2)
      · cases h
    all_goals first
      | (cases h; rename_i h1; first
          | exact .stop (hb _ _ _ _ _ h1)
          | exact .err (hb _ _ _ _ _ h1)
          | exact .panic (hb _ _ _ _ _ h1)
          | exact .wait (hb _ _ _ _ _ h1))
      | cases h

theorem poll_exec (T n : Nat) {α : Type} (p : Code α) :
    ∀ (l : Loc) (es : List Poll) (d : Did) (r : Ran α), p.poll T n l es = some (d, r) → Exec T p l es d r := by
  induction p with
  | out x => intro l es d r h; cases h; exact ⟨rfl, rfl⟩
  | get => intro l es d r h; cases h; exact ⟨rfl, rfl⟩
  | modify f => intro l es d r h; cases h; exact ⟨rfl, rfl⟩
  | read k =>
    intro l es d r h
    unfold Code.poll at h
    split at h <;> cases h
    · exact .done (by assumption)
    · exact .wait (by assumption)
  | write bs =>
    intro l es d r h
    unfold Code.poll at h
    split at h <;> cases h
    · exact .done (by assumption)
    · exact .wait (by assumption)
  | bind m k ihm ihk =>
    intro l es d r h
    unfold Code.poll at h
    split at h
    · rename_i h1
      split at h
      · rename_i h2
        cases h
        exact .ok (ihm _ _ _ _ h1) (ihk _ _ _ _ _ h2)
      · cases h
    all_goals first
      | (cases h; rename_i h1; first
          | exact .err (ihm _ _ _ _ h1)
          | exact .panic (ihm _ _ _ _ h1)
          | exact .wait (ihm _ _ _ _ h1))
      | cases h
  | attempt m ih =>
    intro l es d r h
    unfold Code.poll at h
    split at h
    all_goals first
      | (cases h; rename_i h1; first
          | exact .ok (ih _ _ _ _ h1)
          | exact .err (ih _ _ _ _ h1)
          | exact .panic (ih _ _ _ _ h1)
          | exact .wait (ih _ _ _ _ h1))
      | cases h
  | loop body s ih =>
    intro l es d r h
    unfold Code.poll at h
    exact pollLoop_exec (fun s => ih s) n s l es d r h

end Verif

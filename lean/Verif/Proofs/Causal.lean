import Verif.Proofs.Query
import Verif.Spec.Interactive
import Verif.Proofs.Io

/-!
# Runs that differ only in what arrives later

`Causal m`: bytes that arrive later change nothing of what `m` did before it needed them.
-/

namespace Verif

namespace Causal

variable {α β : Type}

/-- `m` leaves the stream alone and does not look at it. -/
theorem still {m : M α} (h1 : ∀ c, (m c).2.tx = c.tx) (h2 : ∀ c zs, m (c.more zs) = ((m c).1, (m c).2.more zs)) :
    Causal m := fun c => ⟨by rw [h1]; exact List.prefix_rfl, fun zs => Or.inl (h2 c zs)⟩

theorem pure (a : α) : Causal (Pure.pure a : M α) := still (fun _ => rfl) fun _ _ => rfl
theorem fail (e : Error) : Causal (SM.fail e : M α) := still (fun _ => rfl) fun _ _ => rfl
theorem crash : Causal (SM.crash : M α) := still (fun _ => rfl) fun _ _ => rfl
theorem ofOut (x : Out Error α) : Causal (SM.ofOut x : M α) := still (fun _ => rfl) fun _ _ => rfl
theorem liftP (x : Out ProtocolError α) : Causal (Verif.liftP x) := ofOut _
theorem liftParse (x : Out ParseError α) : Causal (Verif.liftParse x) := ofOut _

theorem modify {f : Conn → Conn} (h1 : ∀ c, (f c).tx = c.tx) (h2 : ∀ c zs, f (c.more zs) = (f c).more zs) :
    Causal (SM.modify f : M Unit) :=
  still h1 fun c zs => by
    change (Out.ok (), f (c.more zs)) = (Out.ok (), (f c).more zs)
    rw [h2]

theorem bind {m : M α} {f : α → M β} (hm : Causal m) (hf : ∀ a, Causal (f a)) : Causal (m >>= f) := by
  intro c
  obtain ⟨h1, h2⟩ := hm c
  have grow : ∀ c', (m c').2.tx <+: ((m >>= f) c').2.tx := by
    intro c'
    rw [SM.bind_apply]
    match e : m c' with
    | (.ok a, s) => exact (hf a s).1
    | (.err _, s) => exact List.prefix_rfl
    | (.panic, s) => exact List.prefix_rfl
  refine ⟨h1.trans (grow c), fun zs => ?_⟩
  rcases h2 zs with h3 | ⟨h3, h4⟩
  · rw [SM.bind_apply, SM.bind_apply, h3]
    match e : m c with
    | (.ok a, s) => exact (hf a s).2 zs
    | (.err _, s) => exact Or.inl rfl
    | (.panic, s) => exact Or.inl rfl
  · refine Or.inr ?_
    have e : (m >>= f) c = (.err eof, (m c).2) := by
      rw [SM.bind_apply]
      match e : m c with
      | (.ok a, s) => rw [e] at h3; cases h3.1
      | (.err x, s) => rw [e] at h3; cases h3.1; rfl
      | (.panic, s) => rw [e] at h3; cases h3.1
    rw [e]
    exact ⟨⟨rfl, h3.2⟩, h4.trans (grow _)⟩

/-- the continuation does not look at what has arrived. -/
theorem get_bind {f : Conn → M β} (hf : ∀ c, Causal (f c)) (he : ∀ c zs, f (c.more zs) = f c) :
    Causal (SM.get >>= f) := fun c => by
  change c.tx <+: (f c c).2.tx ∧ ∀ zs, f (c.more zs) (c.more zs) = ((f c c).1, (f c c).2.more zs) ∨
    (Dry (f c c) ∧ (f c c).2.tx <+: (f (c.more zs) (c.more zs)).2.tx)
  refine ⟨(hf c c).1, fun zs => ?_⟩
  rw [he]
  exact (hf c c).2 zs

theorem ite {p : Prop} [Decidable p] {a b : M α} (ha : Causal a) (hb : Causal b) : Causal (if p then a else b) := by
  split <;> assumption

end Causal

theorem takeRx_more (n : Nat) (r zs : List Rx) :
    takeRx n (r ++ zs) = ((takeRx n r).1, (takeRx n r).2 ++ zs) ∨ takeRx n r = (.err .unexpectedEof, []) := by
  induction n generalizing r with
  | zero => exact Or.inl rfl
  | succ n ih =>
    cases r with
    | nil => exact Or.inr rfl
    | cons x r =>
      cases x with
      | fault k => exact Or.inl rfl
      | byte b =>
        rcases ih r with h | h
        · refine Or.inl ?_
          simp only [List.cons_append, takeRx, h]
          match takeRx n r with
          | (.ok bs, r') => rfl
          | (.err _, r') => rfl
          | (.panic, r') => rfl
        · refine Or.inr ?_
          simp only [takeRx, h]

namespace Causal

variable {α β : Type}

theorem readExact (n : Nat) : Causal (Verif.readExact n) := by
  intro c
  refine ⟨List.prefix_rfl, fun zs => ?_⟩
  unfold Verif.readExact Conn.more Dry
  dsimp only
  rcases takeRx_more n c.rx zs with h | h
  · rw [h]
    exact Or.inl rfl
  · rw [h]
    exact Or.inr ⟨⟨rfl, rfl⟩, List.prefix_rfl⟩

theorem writeRaw (bs : Bytes) : Causal (Verif.writeRaw bs) := by
  intro c
  unfold Verif.writeRaw Conn.more
  dsimp only
  match c.wfaults with
  | [] => exact ⟨List.prefix_append _ _, fun zs => Or.inl rfl⟩
  | none :: f => exact ⟨List.prefix_append _ _, fun zs => Or.inl rfl⟩
  | some (k, e) :: f => exact ⟨List.prefix_append _ _, fun zs => Or.inl rfl⟩

theorem readChunk (dst : Bytes) : Causal (Verif.readChunk dst) := by
  unfold Verif.readChunk
  refine bind (readExact 4) fun md => ?_
  split
  · refine ite (pure _) (bind (readExact _) fun ch => ?_)
    exact ite (pure _) (pure _)
  · exact crash

theorem bumpSeq : Causal (SM.modify fun c => { c with seqId := c.seqId + 1 } : M Unit) :=
  modify (fun _ => rfl) fun _ _ => rfl

theorem zeroSeq : Causal (SM.modify fun c => { c with seqId := 0 } : M Unit) :=
  modify (fun _ => rfl) fun _ _ => rfl

theorem pending (b : Bool) : Causal (SM.modify fun c => { c with pendingResult := b } : M Unit) :=
  modify (fun _ => rfl) fun _ _ => rfl

theorem readPacketLoop (fuel : Nat) (dst : Bytes) : Causal (Verif.readPacketLoop fuel dst) := by
  induction fuel generalizing dst with
  | zero => exact crash
  | succ fuel ih =>
    unfold Verif.readPacketLoop
    refine bind (readChunk dst) fun r => get_bind (fun c => ?_) fun c zs => rfl
    exact ite (fail _) (bind bumpSeq fun _ => ite (pure _) (ih _))

theorem writeChunks (bs : Bytes) : Causal (Verif.writeChunks bs) := by
  induction h : bs.length using Nat.strongRecOn generalizing bs with
  | ind n ih =>
    unfold Verif.writeChunks
    split
    · exact pure _
    · rename_i hne
      refine get_bind (fun c => ?_) fun c zs => rfl
      refine bind (writeRaw _) fun _ => bind (writeRaw _) fun _ => bind bumpSeq fun _ => ?_
      have : 0 < bs.length := List.length_pos_iff.mpr hne
      refine ih _ ?_ _ rfl
      simp only [List.length_drop, MAX_PAYLOAD_LEN]
      omega

theorem writePacket (bs : Bytes) : Causal (Verif.writePacket bs) := by
  unfold Verif.writePacket
  refine bind (writeChunks _) fun _ => ite ?_ (pure _)
  exact get_bind (fun c => bind (writeRaw _) fun _ => bumpSeq) fun c zs => rfl

end Causal

/-! ### more fuel than needed -/

theorem readPacketLoop_fuel (fuel k : Nat) (dst : Bytes) (c : Conn) (h : c.rx.length < fuel) :
    readPacketLoop (fuel + k) dst c = readPacketLoop fuel dst c := by
  induction fuel generalizing dst c with
  | zero => omega
  | succ fuel ih =>
    rw [show fuel + 1 + k = (fuel + k) + 1 by omega]
    unfold readPacketLoop
    match e : readChunk dst c with
    | (.err x, s) => rw [SM.bind_of_err e, SM.bind_of_err e]
    | (.panic, s) => rw [SM.bind_of_panic e, SM.bind_of_panic e]
    | (.ok (q, last, dst'), c1) =>
      rw [SM.bind_of_ok e, SM.bind_of_ok e]
      obtain ⟨chunk, -, -, hrx, -, -⟩ := readChunk_eq_ok e
      have hlen : c1.rx.length + 4 ≤ c.rx.length := by
        rw [hrx]; simp; omega
      simp only [SM.get_bind_apply]
      split
      · rfl
      · simp only [SM.modify_bind_apply]
        split
        · rfl
        · exact ih _ _ (by simp only; omega)

theorem Causal.fueled {α : Type} {f : Nat → M α} (a : Nat) (hc : ∀ n, Causal (f n))
    (hf : ∀ n k c, c.rx.length + a ≤ n → f (n + k) c = f n c) : Causal (fun c => f (c.rx.length + a) c) := by
  intro c
  obtain ⟨h1, h2⟩ := hc (c.rx.length + a) c
  refine ⟨h1, fun zs => ?_⟩
  have e : f ((c.more zs).rx.length + a) (c.more zs) = f (c.rx.length + a + zs.length) (c.more zs) := by
    unfold Conn.more
    rw [List.length_append, Nat.add_right_comm]
  have e' : f (c.rx.length + a) c = f (c.rx.length + a + zs.length) c := (hf _ _ _ (Nat.le_refl _)).symm
  dsimp only
  rw [e, e']
  exact (hc _ c).2 zs

theorem Causal.readPacket : Causal Verif.readPacket :=
  Causal.fueled (f := fun n => Verif.readPacketLoop n []) 1 (fun n => Causal.readPacketLoop n [])
    fun n k c h => readPacketLoop_fuel n k [] c (by omega)

theorem readPacket_shrinks {c c' : Conn} {p : Bytes} (h : readPacket c = (.ok p, c')) : c'.rx.length < c.rx.length := by
  obtain ⟨h1, _⟩ := readPacket_eq_ok h
  rw [h1, List.length_append]
  have : 0 < (rxOf (Spec.frames c.seqId p)).length := by
    have := framesAll_length c.seqId [p]
    simp only [Spec.framesAll, List.append_nil, List.length_singleton] at this
    unfold rxOf
    rw [List.length_map]
    omega
  omega

theorem cleanupLoop_fuel (fuel k : Nat) (c : Conn) (h : c.rx.length < fuel) :
    cleanupLoop (fuel + k) c = cleanupLoop fuel c := by
  induction fuel generalizing c with
  | zero => omega
  | succ fuel ih =>
    rw [show fuel + 1 + k = (fuel + k) + 1 by omega]
    unfold cleanupLoop
    match e : readPacket c with
    | (.err x, s) => rw [SM.bind_of_err e, SM.bind_of_err e]
    | (.panic, s) => rw [SM.bind_of_panic e, SM.bind_of_panic e]
    | (.ok p, c1) =>
      rw [SM.bind_of_ok e, SM.bind_of_ok e, SM.get_bind_apply, SM.get_bind_apply]
      have hs := readPacket_shrinks e
      match isLast c1.data.capabilities p with
      | .err x => rfl
      | .panic => rfl
      | .ok true => rfl
      | .ok false => exact ih c1 (by omega)

theorem next_shrinks {R : Type} {rd : RowReader R} {rs rs' : RSet} {r : R} {c c1 : Conn}
    (e : rs.next rd c = (.ok (rs', some r), c1)) : c1.rx.length < c.rx.length := by
  unfold RSet.next at e
  split at e
  · cases e
  · obtain ⟨p, c2, h1, h2⟩ := SM.bind_eq_ok.1 e
    have := readPacket_shrinks h1
    rw [SM.get_bind_apply] at h2
    obtain ⟨last, c3, h3, h4⟩ := SM.bind_eq_ok.1 h2
    have e3 : c3 = c2 := by
      cases hl : isLast c2.data.capabilities p <;> rw [hl] at h3 <;> cases h3
      rfl
    subst e3
    split at h4
    · obtain ⟨ok, c4, h5, h6⟩ := SM.bind_eq_ok.1 h4
      rw [SM.modify_bind_apply] at h6
      cases h6
    · obtain ⟨row, c4, h5, h6⟩ := SM.bind_eq_ok.1 h4
      obtain ⟨x, c5, h7, h8⟩ := SM.bind_eq_ok.1 h6
      cases h8
      have e4 : c4 = c3 := by
        unfold liftP at h5
        cases hx : rd.row p rs.columns <;> rw [hx] at h5 <;> cases h5
        rfl
      have e5 : c1 = c4 := by
        unfold liftParse at h7
        cases hx : rd.build rs.columns row <;> rw [hx] at h7 <;> cases h7
        rfl
      rw [e5, e4]
      exact this

theorem collectLoop_fuel {R : Type} (rd : RowReader R) (fuel k : Nat) (rs : RSet) (c : Conn)
    (h : c.rx.length + 1 < fuel) : rs.collectLoop rd (fuel + k) c = rs.collectLoop rd fuel c := by
  induction fuel generalizing rs c with
  | zero => omega
  | succ fuel ih =>
    rw [show fuel + 1 + k = (fuel + k) + 1 by omega]
    unfold RSet.collectLoop
    match e : rs.next rd c with
    | (.err x, s) => rw [SM.bind_of_err e, SM.bind_of_err e]
    | (.panic, s) => rw [SM.bind_of_panic e, SM.bind_of_panic e]
    | (.ok (rs', none), c1) => rw [SM.bind_of_ok e, SM.bind_of_ok e]
    | (.ok (rs', some r), c1) =>
      rw [SM.bind_of_ok e, SM.bind_of_ok e]
      have hs := next_shrinks e
      dsimp only
      rw [SM.bind_apply, SM.bind_apply, ih rs' c1 (by omega)]

theorem loadLoop_fuel (fp : FloatParse) (ms : List MigList) (fuel k : Nat) (rs : RSet) (a : Version → List Str)
    (c : Conn) (h : c.rx.length < fuel) : loadLoop fp ms (fuel + k) rs a c = loadLoop fp ms fuel rs a c := by
  induction fuel generalizing rs a c with
  | zero => omega
  | succ fuel ih =>
    rw [show fuel + 1 + k = (fuel + k) + 1 by omega]
    unfold loadLoop
    match e : rs.next (textReader fp migrationOf) c with
    | (.err x, s) => rw [SM.bind_of_err e, SM.bind_of_err e]
    | (.panic, s) => rw [SM.bind_of_panic e, SM.bind_of_panic e]
    | (.ok (rs', none), c1) => rw [SM.bind_of_ok e, SM.bind_of_ok e]
    | (.ok (rs', some r), c1) =>
      rw [SM.bind_of_ok e, SM.bind_of_ok e]
      have hs := next_shrinks e
      dsimp only
      split
      · exact ih _ _ _ (by omega)
      · rfl

theorem loadLoop_fuelRel (fp : FloatParse) (ms : List MigList) (fuel k : Nat) (rs : RSet) (a : Version → List Str)
    (c : Conn) (h : c.rx.length < fuel) : loadLoopRel fp ms (fuel + k) rs a c = loadLoopRel fp ms fuel rs a c := by
  induction fuel generalizing rs a c with
  | zero => omega
  | succ fuel ih =>
    rw [show fuel + 1 + k = (fuel + k) + 1 by omega]
    unfold loadLoopRel
    match e : rs.next (textReaderRel fp migrationOf) c with
    | (.err x, s) => rw [SM.bind_of_err e, SM.bind_of_err e]
    | (.panic, s) => rw [SM.bind_of_panic e, SM.bind_of_panic e]
    | (.ok (rs', none), c1) => rw [SM.bind_of_ok e, SM.bind_of_ok e]
    | (.ok (rs', some r), c1) =>
      rw [SM.bind_of_ok e, SM.bind_of_ok e]
      have hs := next_shrinks e
      dsimp only
      split
      · exact ih _ _ _ (by omega)
      · rfl

/-! ### the calls -/

namespace Causal

variable {α β : Type}

theorem decodeResponse (p : Bytes) : Causal (Verif.decodeResponse p) := by
  unfold Verif.decodeResponse
  refine get_bind (fun c => ?_) fun c zs => rfl
  split
  · exact fail _
  · exact ite (bind (liftP _) fun _ => pure _) (ite (bind (liftP _) fun _ => pure _) (fail _))

theorem okOrServerError (r : Except ErrPacket OkPacket) : Causal (Verif.okOrServerError r) := by
  unfold Verif.okOrServerError
  split
  · exact pure _
  · exact fail _

theorem readResponse : Causal Verif.readResponse := bind readPacket fun p => decodeResponse p

theorem cleanupLoop (fuel : Nat) : Causal (Verif.cleanupLoop fuel) := by
  induction fuel with
  | zero => exact crash
  | succ fuel ih =>
    unfold Verif.cleanupLoop
    refine bind readPacket fun p => get_bind (fun c => ?_) fun c zs => rfl
    exact bind (ofOut _) fun last => ite (bind (pending false) fun _ => liftP _) ih

theorem cleanup : Causal Verif.cleanup := by
  have h := Causal.fueled (f := Verif.cleanupLoop) 1 cleanupLoop fun n k c h => cleanupLoop_fuel n k c (by omega)
  have h' : Causal (fun c => (Verif.cleanupLoop (c.rx.length + 1) >>= fun ok => (Pure.pure (some ok) : M _)) c) :=
    bind h fun ok => pure (some ok)
  intro c
  unfold Verif.cleanup
  cases hp : c.pendingResult with
  | true =>
    rw [if_pos rfl]
    refine ⟨(h' c).1, fun zs => ?_⟩
    have e : (c.more zs).pendingResult = true := hp
    rw [e, if_pos rfl]
    exact (h' c).2 zs
  | false =>
    rw [if_neg (by simp)]
    refine ⟨List.prefix_rfl, fun zs => Or.inl ?_⟩
    have e : (c.more zs).pendingResult = false := hp
    rw [e, if_neg (by simp)]

theorem executeCommand (cmd : Command) (d : Bytes) : Causal (Verif.executeCommand cmd d) :=
  bind cleanup fun _ => bind zeroSeq fun _ => writePacket _

theorem writeCommand (bs : Bytes) : Causal (Verif.writeCommand bs) :=
  bind cleanup fun _ => bind zeroSeq fun _ => writePacket _

theorem readColumns (n : Nat) : Causal (Verif.readColumns n) := by
  have h : ∀ n, Causal (readColumnDefs n) := by
    intro n
    induction n with
    | zero => exact pure _
    | succ n ih => exact bind readPacket fun _ => bind (liftP _) fun _ => bind ih fun _ => pure _
  exact ite crash (h n)

theorem rsetRead : Causal RSet.read := by
  unfold RSet.read
  refine bind readPacket fun p => get_bind (fun c => ?_) fun c zs => rfl
  have tail : Causal (do
      SM.modify fun c => { c with pendingResult := true }
      let n ← Verif.liftP (runP P.checkedEatLenencInt p)
      let cols ← Verif.readColumns n.toNat
      Pure.pure { columns := cols, okPacket := none } : M RSet) :=
    bind (pending true) fun _ => bind (liftP _) fun _ => bind (readColumns _) fun _ => pure _
  split
  · refine ite (bind (decodeResponse _) fun r => bind (okOrServerError r) fun _ => pure _) (ite crash (ite ?_ tail))
    exact bind (liftP _) fun _ => fail _
  · exact tail

theorem rsetNext {R : Type} (rd : RowReader R) (rs : RSet) : Causal (RSet.next rd rs) := by
  unfold RSet.next
  refine ite (pure _) (bind readPacket fun p => get_bind (fun c => ?_) fun c zs => rfl)
  refine bind (ofOut _) fun last => ite ?_ ?_
  · exact bind (liftP _) fun _ => bind (pending false) fun _ => pure _
  · exact bind (liftP _) fun _ => bind (liftParse _) fun _ => pure _

theorem rsetCollectLoop {R : Type} (rd : RowReader R) (fuel : Nat) (rs : RSet) :
    Causal (RSet.collectLoop rd fuel rs) := by
  induction fuel generalizing rs with
  | zero => exact crash
  | succ fuel ih =>
    unfold RSet.collectLoop
    refine bind (rsetNext rd rs) fun x => ?_
    obtain ⟨rs', r⟩ := x
    cases r with
    | none => exact pure _
    | some r => exact bind (ih _) fun _ => pure _

theorem rsetCollect {R : Type} (rd : RowReader R) (rs : RSet) : Causal (RSet.collect rd rs) :=
  Causal.fueled (f := fun n => RSet.collectLoop rd n rs) 2 (fun n => rsetCollectLoop rd n rs)
    fun n k c h => collectLoop_fuel rd n k rs c (by omega)

theorem rsetDrain {R : Type} (rd : RowReader R) (rs : RSet) : Causal (RSet.drain rd rs) :=
  bind (rsetCollect rd rs) fun _ => pure _

theorem rsetFinish {R : Type} (rd : RowReader R) (rs : RSet) : Causal (RSet.finish rd rs) := by
  unfold RSet.finish
  split
  · exact pure _
  · refine bind (rsetDrain rd rs) fun rs' => ?_
    split
    · exact pure _
    · exact crash

theorem rsetOne {R : Type} (rd : RowReader R) (rs : RSet) : Causal (RSet.one rd rs) := by
  have hok : ∀ x : RSet × Option R, Causal (x.1.drain rd >>= fun rs'' => (Pure.pure (rs'', x.2) : M (RSet × Option R))) :=
    fun x => bind (rsetDrain rd _) fun _ => pure _
  have herr : ∀ e, Causal (rs.drain rd >>= fun _ => (SM.fail e : M (RSet × Option R))) :=
    fun e => bind (rsetDrain rd _) fun _ => fail _
  have hone : ∀ c, RSet.one rd rs c = match rs.next rd c with
      | (.ok x, c') => (x.1.drain rd >>= fun rs'' => (Pure.pure (rs'', x.2) : M (RSet × Option R))) c'
      | (.err e, c') => (rs.drain rd >>= fun _ => (SM.fail e : M (RSet × Option R))) c'
      | (.panic, c') => (.panic, c') := by
    intro c
    unfold RSet.one
    match e : rs.next rd c with
    | (.ok x, c') =>
      have : SM.attempt (rs.next rd) c = (.ok (.ok x), c') := by unfold SM.attempt; rw [e]
      rw [SM.bind_of_ok this]
    | (.err x, c') =>
      have : SM.attempt (rs.next rd) c = (.ok (.error x), c') := by unfold SM.attempt; rw [e]
      rw [SM.bind_of_ok this]
    | (.panic, c') =>
      have : SM.attempt (rs.next rd) c = (.panic, c') := by unfold SM.attempt; rw [e]
      rw [SM.bind_of_panic this]
  have hdry : ∀ (c : Conn) e, c.rx = [] → rs.okPacket = none →
      Dry ((rs.drain rd >>= fun _ => (SM.fail e : M (RSet × Option R))) c) ∧
        ((rs.drain rd >>= fun _ => (SM.fail e : M (RSet × Option R))) c).2.tx = c.tx := by
    intro c e h1 h2
    have h3 : rs.next rd c = (.err eof, c) := by
      unfold RSet.next
      rw [h2, if_neg (by simp)]
      have : Verif.readPacket c = (.err eof, c) := by
        unfold Verif.readPacket Verif.readPacketLoop
        have : Verif.readChunk [] c = (.err eof, c) := by
          unfold Verif.readChunk
          have : Verif.readExact 4 c = (.err eof, c) := by
            unfold Verif.readExact
            rw [h1]
            simp only [takeRx, ← h1]
            rfl
          rw [SM.bind_of_err this]
        rw [SM.bind_of_err this]
      rw [SM.bind_of_err this]
    have h4 : rs.drain rd c = (.err eof, c) := by
      unfold RSet.drain RSet.collect RSet.collectLoop
      refine SM.bind_of_err ?_
      exact SM.bind_of_err h3
    rw [SM.bind_of_err h4]
    exact ⟨⟨rfl, h1⟩, rfl⟩
  have hnone : ∀ c e c', rs.next rd c = (.err e, c') → rs.okPacket = none := by
    intro c e c' h
    unfold RSet.next at h
    split at h
    · cases h
    · rename_i h'
      simpa using h'
  intro c
  obtain ⟨h1, h2⟩ := rsetNext rd rs c
  have grow : ∀ c', (rs.next rd c').2.tx <+: (rs.one rd c').2.tx := by
    intro c'
    rw [hone]
    match rs.next rd c' with
    | (.ok x, s) => exact (hok x s).1
    | (.err e, s) => exact (herr e s).1
    | (.panic, s) => exact List.prefix_rfl
  refine ⟨h1.trans (grow c), fun zs => ?_⟩
  rcases h2 zs with h3 | ⟨h3, h4⟩
  · rw [hone, hone, h3]
    match e : rs.next rd c with
    | (.ok x, s) => exact (hok x s).2 zs
    | (.err x, s) => exact (herr x s).2 zs
    | (.panic, s) => exact Or.inl rfl
  · refine Or.inr ?_
    have hg := h4.trans (grow (c.more zs))
    match e : rs.next rd c with
    | (.ok x, s) => rw [e] at h3; cases h3.1
    | (.panic, s) => rw [e] at h3; cases h3.1
    | (.err x, s) =>
      rw [e] at h3 hg
      have := hdry s x h3.2 (hnone _ _ _ e)
      rw [hone c, e]
      exact ⟨this.1, by dsimp only; rw [this.2]; exact hg⟩

theorem query (sql : Str) : Causal (Verif.query sql) := bind (executeCommand _ _) fun _ => rsetRead

theorem executeQuery (sql : Str) : Causal (Verif.executeQuery sql) :=
  bind (executeCommand _ _) fun _ => bind readResponse fun r => okOrServerError r

theorem skipPackets (n : Nat) : Causal (Verif.skipPackets n) := by
  induction n with
  | zero => exact pure _
  | succ n ih => exact bind readPacket fun _ => ih

theorem prepareStatement (sql : Str) : Causal (Verif.prepareStatement sql) := by
  unfold Verif.prepareStatement
  refine bind (executeCommand _ _) fun _ => bind readPacket fun p => get_bind (fun c => ?_) fun c zs => rfl
  split
  · refine ite (bind (liftP _) fun _ => bind (skipPackets _) fun _ => pure _) (ite ?_ (fail _))
    exact bind (liftP _) fun _ => fail _
  · exact fail _

theorem sendPieces (id : UInt32) (i : Nat) (ps : List Bytes) : Causal (Verif.sendPieces id i ps) := by
  induction ps with
  | nil => exact pure _
  | cons p ps ih => exact bind (writeCommand _) fun _ => ih

theorem sendLongData (id : UInt32) (i : Nat) (vs : List Value) : Causal (Verif.sendLongData id i vs) := by
  induction vs generalizing i with
  | nil => exact pure _
  | cons v vs ih => exact bind (sendPieces _ _ _) fun _ => ih _

theorem sendExecute (id : UInt32) (vs : List Value) : Causal (Verif.sendExecute id vs) :=
  bind (ofOut _) fun _ => ite (bind (sendLongData _ _ _) fun _ => writeCommand _) (writeCommand _)

theorem preparedQuery (p : Prepared) (vs : List Value) : Causal (p.query vs) :=
  ite (fail _) (bind (sendExecute _ _) fun _ => rsetRead)

theorem preparedExecute (p : Prepared) (vs : List Value) : Causal (p.execute vs) :=
  ite (fail _) (bind (sendExecute _ _) fun _ => bind readResponse fun r => okOrServerError r)

/-! ### connecting -/

theorem handleHandshake (alnum : Char → Bool) : Causal (Verif.handleHandshake alnum) := by
  unfold Verif.handleHandshake
  refine bind readPacket fun p => ?_
  split
  · split
    · exact modify (fun _ => rfl) fun _ _ => rfl
    · exact crash
  · exact crash

theorem doHandshakeResponse (cr : Crypto) : Causal (Verif.doHandshakeResponse cr) :=
  get_bind (fun _ => bind (ofOut _) fun _ => writePacket _) fun _ _ => rfl

theorem authFailure (p : Bytes) : Causal (Verif.authFailure (α := α) p) := by
  unfold Verif.authFailure
  refine get_bind (fun c => ?_) fun c zs => rfl
  split
  · exact fail _
  · exact fail _
  · exact crash

theorem fetchKey : Causal Verif.fetchKey := by
  unfold Verif.fetchKey
  refine get_bind (fun c => ?_) fun c zs => rfl
  split
  · exact pure _
  · refine bind (writePacket _) fun _ => bind readPacket fun p => get_bind (fun c => ?_) fun c zs => rfl
    split
    · exact fail _
    · refine ite ?_ (ite (bind (liftP _) fun _ => fail _) (fail _))
      exact bind (ofOut _) fun _ => bind (modify (fun _ => rfl) fun _ _ => rfl) fun _ => pure _

theorem sendPassword (cr : Crypto) : Causal (Verif.sendPassword cr) := by
  unfold Verif.sendPassword
  refine get_bind (fun c => ?_) fun c zs => rfl
  refine ite (writePacket _) (bind fetchKey fun _ => get_bind (fun c => ?_) fun c zs => rfl)
  exact bind (ofOut _) fun _ => bind (ofOut _) fun _ => writePacket _

theorem readVerdict : Causal Verif.readVerdict := by
  unfold Verif.readVerdict
  refine bind readPacket fun p => get_bind (fun c => ?_) fun c zs => rfl
  split
  · exact fail _
  · exact ite (pure _) (ite (bind (liftP _) fun _ => fail _) (fail _))

theorem switchAuth (cr : Crypto) (sw : AuthSwitch) : Causal (Verif.switchAuth cr sw) := by
  unfold Verif.switchAuth
  refine get_bind (fun c => ?_) fun c zs => rfl
  refine ite crash (bind (modify (fun _ => rfl) fun _ _ => rfl) fun _ => get_bind (fun c => ?_) fun c zs => rfl)
  refine bind (ofOut _) fun d => ?_
  split
  · exact writePacket _
  · exact writePacket _

theorem continueAuth (cr : Crypto) (fuel : Nat) : Causal (Verif.continueAuth cr fuel) := by
  induction fuel with
  | zero => exact crash
  | succ fuel ih =>
    unfold Verif.continueAuth
    refine get_bind (fun c => bind readPacket fun p => get_bind (fun c' => ?_) fun c zs => rfl) fun c zs => rfl
    split
    · exact authFailure _
    · refine ite (pure _) (ite ?_ (ite ?_ (authFailure _)))
      · split
        · exact fail _
        · exact ite (bind readPacket fun _ => pure _)
            (ite (bind (sendPassword cr) fun _ => readVerdict) (fail _))
      · exact bind (liftP _) fun _ => bind (switchAuth cr _) fun _ => ih

theorem login (cr : Crypto) (alnum : Char → Bool) : Causal (Verif.login cr alnum) :=
  bind (handleHandshake alnum) fun _ => bind (doHandshakeResponse cr) fun _ => continueAuth cr 2

theorem readSettings (fp : FloatParse) : Causal (Verif.readSettings fp) := by
  unfold Verif.readSettings askLimit
  refine get_bind (fun c => ite ?_ (pure _)) fun c zs => rfl
  refine bind (query _) fun rs => bind (rsetNext _ rs) fun x => ?_
  obtain ⟨rs', row⟩ := x
  cases row with
  | none => exact pure _
  | some row =>
    refine bind (ofOut _) fun n => ?_
    cases n with
    | none => exact pure _
    | some n => exact modify (fun _ => rfl) fun _ _ => rfl

theorem connect (cr : Crypto) (alnum : Char → Bool) (fp : FloatParse) : Causal (Verif.connect cr alnum fp) :=
  bind (login cr alnum) fun _ => readSettings fp

theorem disconnect : Causal Verif.disconnect := executeCommand _ _

/-! ### models -/

theorem liftS (x : Out SerializeError α) : Causal (Verif.liftS x) := ofOut _

theorem plainValues (fs : List (Str × Option (Out SerializeError Value))) : Causal (Verif.plainValues fs) := by
  induction fs with
  | nil => exact pure _
  | cons f fs ih =>
    obtain ⟨n, x⟩ := f
    cases x with
    | none => exact ih
    | some x => exact bind (liftS _) fun _ => bind ih fun _ => pure _

theorem memberValues (f : Str) (ms : List (Str × Out SerializeError Value)) : Causal (Verif.memberValues f ms) := by
  induction ms with
  | nil => exact pure _
  | cons m ms ih => exact bind (liftS _) fun _ => bind ih fun _ => pure _

theorem structValues (fs : List (Str × Option (List (Str × Out SerializeError Value)))) :
    Causal (Verif.structValues fs) := by
  induction fs with
  | nil => exact pure _
  | cons f fs ih =>
    obtain ⟨n, x⟩ := f
    cases x with
    | none => exact ih
    | some x => exact bind (memberValues _ _) fun _ => bind ih fun _ => pure _

theorem executeInsert (t : Str) (vs : List NamedValue) : Causal (Verif.executeInsert t vs) :=
  bind (prepareStatement _) fun _ => bind (preparedExecute _ _) fun _ => pure _

mutual
theorem insert : ∀ m : ActiveModel, Causal m.insert
  | .mk t _ plain structs refs => by
    unfold ActiveModel.insert
    exact bind (plainValues _) fun _ => bind (structValues _) fun _ => bind (refValues refs) fun _ => executeInsert _ _

theorem refValues : ∀ r : ActiveRefs, Causal (Verif.refValues r)
  | .nil => by unfold Verif.refValues; exact pure _
  | .set f v r => by unfold Verif.refValues; exact bind (refValues r) fun _ => pure _
  | .insert f m r => by unfold Verif.refValues; exact bind (insert m) fun _ => bind (refValues r) fun _ => pure _
  | .unset _ r => by unfold Verif.refValues; exact refValues r
end

theorem intoValues (m : ActiveModel) : Causal m.intoValues := by
  obtain ⟨t, p, plain, structs, refs⟩ := m
  exact bind (plainValues _) fun _ => bind (structValues _) fun _ => bind (refValues refs) fun _ => pure _

theorem update (id : Value) (primary : Str) (m : ActiveModel) : Causal (m.update id primary) := by
  unfold ActiveModel.update
  exact bind (intoValues m) fun vs =>
    ite (bind (prepareStatement _) fun _ => bind (preparedExecute _ _) fun _ => pure _) (pure _)

/-! ### the migrator -/

theorem loadLoop (fp : FloatParse) (ms : List MigList) (n : Nat) (rs : RSet) (a : Version → List Str) :
    Causal (Verif.loadLoop fp ms n rs a) := by
  induction n generalizing rs a with
  | zero => exact crash
  | succ n ih =>
    unfold Verif.loadLoop
    refine bind (rsetNext _ rs) fun x => ?_
    obtain ⟨rs', k⟩ := x
    cases k with
    | none => exact pure _
    | some k => exact ite (ih _ _) crash

theorem loadTable (fp : FloatParse) (ms : List MigList) : Causal (Verif.loadTable fp ms) := by
  refine bind (query _) fun rs => ?_
  exact Causal.fueled (f := fun n => Verif.loadLoop fp ms n rs fun _ => []) 2 (fun n => loadLoop fp ms n rs _)
    fun n k c h => loadLoop_fuel fp ms n k rs _ c (by omega)

theorem ensureTable (fp : FloatParse) : Causal (Verif.ensureTable fp) := by
  refine bind (query _) fun rs => bind (rsetCollect _ rs) fun x => ?_
  exact ite (bind (executeQuery _) fun _ => pure _) (pure _)

theorem migratorOpen (debug : Bool) (fp : FloatParse) (ms : List MigList) : Causal (Verif.migratorOpen debug fp ms) :=
  ite crash (bind (ensureTable fp) fun _ => loadTable fp ms)

/-! ### without overflow checks -/

theorem handleHandshakeRel (alnum : Char → Bool) : Causal (Verif.handleHandshakeRel alnum) := by
  unfold Verif.handleHandshakeRel
  refine bind readPacket fun p => ?_
  split
  · split
    · exact modify (fun _ => rfl) fun _ _ => rfl
    · exact crash
  · exact crash

theorem loginRel (cr : Crypto) (alnum : Char → Bool) : Causal (Verif.loginRel cr alnum) :=
  bind (handleHandshakeRel alnum) fun _ => bind (doHandshakeResponse cr) fun _ => continueAuth cr 2

theorem readSettingsRel (fp : FloatParse) : Causal (Verif.readSettingsRel fp) := by
  unfold Verif.readSettingsRel Verif.askLimitRel
  refine get_bind (fun c => ite ?_ (pure _)) fun c zs => rfl
  refine bind (query _) fun rs => bind (rsetNext _ rs) fun x => ?_
  obtain ⟨rs', row⟩ := x
  cases row with
  | none => exact pure _
  | some row =>
    refine bind (ofOut _) fun n => ?_
    cases n with
    | none => exact pure _
    | some n => exact modify (fun _ => rfl) fun _ _ => rfl

theorem connectRel (cr : Crypto) (alnum : Char → Bool) (fp : FloatParse) : Causal (Verif.connectRel cr alnum fp) :=
  bind (loginRel cr alnum) fun _ => readSettingsRel fp

theorem loadLoopRel (fp : FloatParse) (ms : List MigList) (n : Nat) (rs : RSet) (a : Version → List Str) :
    Causal (Verif.loadLoopRel fp ms n rs a) := by
  induction n generalizing rs a with
  | zero => exact crash
  | succ n ih =>
    unfold Verif.loadLoopRel
    refine bind (rsetNext _ rs) fun x => ?_
    obtain ⟨rs', k⟩ := x
    cases k with
    | none => exact pure _
    | some k => exact ite (ih _ _) crash

theorem loadTableRel (fp : FloatParse) (ms : List MigList) : Causal (Verif.loadTableRel fp ms) := by
  refine bind (query _) fun rs => ?_
  exact Causal.fueled (f := fun n => Verif.loadLoopRel fp ms n rs fun _ => []) 2 (fun n => loadLoopRel fp ms n rs _)
    fun n k c h => loadLoop_fuelRel fp ms n k rs _ c (by omega)

theorem ensureTableRel (fp : FloatParse) : Causal (Verif.ensureTableRel fp) := by
  refine bind (query _) fun rs => bind (rsetCollect _ rs) fun x => ?_
  exact ite (bind (executeQuery _) fun _ => pure _) (pure _)

theorem migratorOpenRel (fp : FloatParse) (ms : List MigList) : Causal (Verif.migratorOpenRel fp ms) :=
  bind (ensureTableRel fp) fun _ => loadTableRel fp ms

theorem library {m : M α} (h : Spec.Library m) : Causal m := by
  cases h with
  | connect cr alnum fp => exact connect cr alnum fp
  | disconnect => exact disconnect
  | query sql => exact query sql
  | executeQuery sql => exact executeQuery sql
  | prepare sql => exact prepareStatement sql
  | stmtQuery p vs => exact preparedQuery p vs
  | stmtExecute p vs => exact preparedExecute p vs
  | next rd rs => exact rsetNext rd rs
  | collect rd rs => exact rsetCollect rd rs
  | one rd rs => exact rsetOne rd rs
  | finish rd rs => exact rsetFinish rd rs
  | insert m => exact insert m
  | update id p m => exact update id p m
  | migrator d fp ms => exact migratorOpen d fp ms
  | connectRel cr alnum fp => exact connectRel cr alnum fp
  | migratorRel fp ms => exact migratorOpenRel fp ms

end Causal

end Verif

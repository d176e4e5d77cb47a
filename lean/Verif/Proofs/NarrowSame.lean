import Verif.Proofs.Narrow

/-!
# Streams on which nothing differs between targets with addresses of 32 and of 64 bits
-/

namespace Verif.Narrow

open Spec (Wide Usual UsualStream)

/-- the same outcome, whatever it is, and the same state. -/
def Exact {σ ε α : Type} (I : σ → Prop) (m m' : SM σ ε α) : Prop := ∀ s, I s → m' s = m s

section
variable {σ ε α β : Type} {I : σ → Prop}

theorem Exact.refl (m : SM σ ε α) : Exact I m m := fun _ _ => rfl

theorem Exact.bind {m m' : SM σ ε α} {f f' : α → SM σ ε β} (h : Exact I m m') (hk : Keeps I m)
    (hf : ∀ a, Exact I (f a) (f' a)) : Exact I (m >>= f) (m' >>= f') := by
  intro s hs
  have h := h s hs
  rcases hm : m s with ⟨o, s'⟩
  rw [hm] at h
  cases o with
  | ok a => rw [SM.bind_of_ok hm, SM.bind_of_ok h]; exact hf a s' (hk s a s' hs hm)
  | err e => rw [SM.bind_of_err hm, SM.bind_of_err h]
  | panic => rw [SM.bind_of_panic hm, SM.bind_of_panic h]

/-- … with the same continuation. -/
theorem Exact.first {m m' : SM σ ε α} {f : α → SM σ ε β} (h : Exact I m m') : Exact I (m >>= f) (m' >>= f) := by
  intro s hs
  rw [SM.bind_apply, SM.bind_apply, h s hs]

/-- … with the same first part. -/
theorem Exact.then {m : SM σ ε α} {f f' : α → SM σ ε β} (hk : Keeps I m) (hf : ∀ a, Exact I (f a) (f' a)) :
    Exact I (m >>= f) (m >>= f') := Exact.bind (Exact.refl m) hk hf

theorem Exact.ite {c : Prop} [Decidable c] {m m' n n' : SM σ ε α} (h : Exact I m m') (h' : Exact I n n') :
    Exact I (if c then m else n) (if c then m' else n') := by split <;> assumption

end

/-- only takes from the front of what `f` shows, whatever the outcome is. -/
def Slides {σ ε α τ : Type} (f : σ → List τ) (m : SM σ ε α) : Prop := ∀ s, f (m s).2 <:+ f s

section
variable {σ ε α β τ : Type} {f : σ → List τ}

theorem Slides.pure (a : α) : Slides f (Pure.pure a : SM σ ε α) := fun _ => List.suffix_refl _
theorem Slides.fail (e : ε) : Slides f (SM.fail e : SM σ ε α) := fun _ => List.suffix_refl _
theorem Slides.crash : Slides f (SM.crash : SM σ ε α) := fun _ => List.suffix_refl _
theorem Slides.get : Slides f (SM.get : SM σ ε σ) := fun _ => List.suffix_refl _
theorem Slides.ofOut (x : Out ε α) : Slides f (SM.ofOut x : SM σ ε α) := fun _ => List.suffix_refl _
theorem Slides.modify {g : σ → σ} (h : ∀ s, f (g s) = f s) : Slides f (SM.modify g : SM σ ε Unit) := fun s =>
  (show f (g s) <:+ f s from h s ▸ List.suffix_refl _)
theorem Slides.bind {m : SM σ ε α} {g : α → SM σ ε β} (h : Slides f m) (hg : ∀ a, Slides f (g a)) :
    Slides f (m >>= g) := by
  intro s
  have h := h s
  rcases hm : m s with ⟨o, s'⟩
  rw [hm] at h
  cases o with
  | ok a => rw [SM.bind_of_ok hm]; exact (hg a s').trans h
  | err e => rw [SM.bind_of_err hm]; exact h
  | panic => rw [SM.bind_of_panic hm]; exact h
theorem Slides.ite {c : Prop} [Decidable c] {m n : SM σ ε α} (h : Slides f m) (h' : Slides f n) :
    Slides f (if c then m else n) := by split <;> assumption
theorem Slides.attempt {m : SM σ ε α} (h : Slides f m) : Slides f (SM.attempt m) := by
  intro s
  have h := h s
  unfold SM.attempt
  rcases hm : m s with ⟨o, s'⟩
  rw [hm] at h
  cases o <;> exact h

end

/-! ### decoders -/

/-- nothing looks like a length that does not fit. -/
def Clean (s : Bytes) : Prop := ∀ a t, s = a ++ t → ¬ Wide t

instance : Tailed Clean := ⟨fun n s h a t e => h (s.take n ++ a) t (by rw [List.append_assoc, ← e, List.take_append_drop])⟩

theorem Clean.not {s : Bytes} (h : Clean s) : ¬ Wide s := h [] s rfl

theorem Clean.tail {s t : Bytes} (h : Clean s) (ht : t <:+ s) : Clean t := by
  obtain ⟨a, rfl⟩ := ht
  exact fun b u e => h (a ++ b) u (by rw [e, List.append_assoc])

theorem slice_exact : Exact Clean P.checkedEatLenencSlice checkedEatLenencSlice := fun _ h => slice_same h.not

theorem keeps_slice {I : Bytes → Prop} [Tailed I] : Keeps I P.checkedEatLenencSlice :=
  keeps_lenencInt.bind fun _ => keeps_checkedEat _

theorem optStr_exact : Exact Clean Verif.optStr optStr := fun _ h => optStr_same h.not

/-- also what cannot be read leaves an end of the bytes. -/
theorem optStr_tail : Slides id Verif.optStr := by
  have he : ∀ n, Slides id (P.checkedEat n) := by
    intro n s
    unfold P.checkedEat P.eat
    split
    · exact List.drop_suffix _ _
    · exact List.suffix_refl _
  have h1 : Slides id P.checkedEatU8 := ((he 1).bind fun _ => Slides.pure _).bind fun _ => Slides.pure _
  have h2 : Slides id P.checkedEatU16 := ((he 2).bind fun _ => Slides.pure _).bind fun _ => Slides.pure _
  have h3 : Slides id P.checkedEatU24 := ((he 3).bind fun _ => Slides.pure _).bind fun _ => Slides.pure _
  have h8 : Slides id P.checkedEatU64 := ((he 8).bind fun _ => Slides.pure _).bind fun _ => Slides.pure _
  have hi : Slides id P.checkedEatLenencInt :=
    h1.bind fun _ => Slides.ite (Slides.pure _) (Slides.ite (h2.bind fun _ => Slides.pure _)
      (Slides.ite (h3.bind fun _ => Slides.pure _) (Slides.ite h8 (Slides.pure _))))
  have hs : Slides id P.checkedEatLenencStr := by
    refine (hi.bind fun _ => he _).bind fun a => ?_
    split
    · exact Slides.pure _
    · exact Slides.fail _
  refine hs.attempt.bind fun r => ?_
  cases r with
  | ok x => exact Slides.pure _
  | error e => exact Slides.pure _

theorem keeps_optStr : Keeps Clean Verif.optStr := fun s a s' hs h =>
  hs.tail (by have := optStr_tail s; rw [h] at this; exact this)

theorem readTail_exact (caps : UInt32) (a l : UInt64) : Exact Clean (OkPacket.readTail caps a l) (readTail caps a l) := by
  unfold OkPacket.readTail readTail
  refine Exact.then keeps_checkedEatU16 fun st => Exact.then keeps_checkedEatU16 fun w => ?_
  refine Exact.bind optStr_exact keeps_optStr fun m => ?_
  dsimp only
  split
  · exact Exact.first optStr_exact
  · exact Exact.refl _

theorem readOk_exact (caps : UInt32) : Exact Clean (OkPacket.readOk caps) (readOk caps) := by
  refine Exact.then keeps_checkedEatU8 fun h => Exact.ite (Exact.refl _) ?_
  exact Exact.then keeps_lenencInt fun _ => Exact.then keeps_lenencInt fun _ => readTail_exact caps _ _

theorem keeps_ignore : Keeps Clean (SM.ignore P.checkedEatLenencInt) := by
  intro s u s' hs h
  have h1 := afterInt_spec s
  rw [h] at h1
  cases h1
  refine hs.tail ?_
  unfold Spec.afterInt
  split
  · exact List.suffix_refl _
  · dsimp only
    generalize (if _ = (0xFC : UInt8) then 2 else _) = k
    split
    · exact (List.drop_suffix _ _).trans (List.suffix_cons _ _)
    · exact List.suffix_cons _ _

theorem readEof_exact (caps : UInt32) : Exact Clean (OkPacket.readEof caps) (readEof caps) :=
  Exact.then keeps_ignore fun _ => Exact.then keeps_ignore fun _ => readTail_exact caps 0 0

theorem errPacket_exact (caps : UInt32) : Exact Clean (ErrPacket.deserialize caps) (errPacket caps) := by
  refine Exact.then (keeps_checkLen _) fun _ => Exact.then keeps_eatU8 fun h => Exact.ite (Exact.refl _) ?_
  refine Exact.then keeps_eatU16 fun code => Exact.ite ?_ (Exact.refl _)
  exact Exact.then (keeps_checkLen _) fun _ => Exact.then (keeps_skip _) fun _ => Exact.then keeps_eatU8 fun _ =>
    Exact.then keeps_eatU8 fun _ => Exact.then keeps_eatU24 fun _ => Exact.first slice_exact

theorem deserializeText_exact (fp : FloatParse) (t : ColumnType) (flags : UInt16) :
    Exact Clean (Verif.deserializeText fp t flags) (deserializeText fp t flags) := by
  refine Exact.then Keeps.get fun s => ?_
  cases s with
  | nil => exact Exact.refl _
  | cons b r =>
    dsimp only
    exact Exact.ite (Exact.refl _) (Exact.first slice_exact)

theorem keeps_text (fp : FloatParse) (t : ColumnType) (flags : UInt16) : Keeps Clean (Verif.deserializeText fp t flags) := by
  refine Keeps.get.bind fun s => ?_
  cases s with
  | nil => exact Keeps.fail _
  | cons b r =>
    dsimp only
    exact Keeps.ite ((keeps_skip _).bind fun _ => Keeps.pure _) (keeps_slice.bind fun _ => Keeps.ofOut _)

theorem textRow_exact (fp : FloatParse) (cols : List Column) : Exact Clean (Verif.textRowLoop fp cols) (textRowLoop fp cols) := by
  induction cols with
  | nil => exact Exact.refl _
  | cons c cs ih => exact Exact.bind (deserializeText_exact fp _ _) (keeps_text fp _ _) fun v => Exact.first ih

theorem deserializeBin_exact (t : ColumnType) (flags : UInt16) :
    Exact Clean (Verif.deserializeBin t flags) (deserializeBin t flags) := by
  have hb : Exact Clean (do return .bytes (← P.checkedEatLenencSlice) : P Value)
      (do return .bytes (← checkedEatLenencSlice)) := Exact.first slice_exact
  cases t <;> first
    | exact hb
    | exact Exact.refl _

theorem binRow_exact (bm : Bytes) (i : Nat) (cols : List Column) :
    Exact Clean (Verif.binRowLoop bm i cols) (binRowLoop bm i cols) := by
  induction cols generalizing i with
  | nil => exact Exact.refl _
  | cons c cs ih =>
    refine Exact.then (Keeps.ofOut _) fun null => Exact.ite (Exact.first (ih _)) ?_
    exact Exact.bind (deserializeBin_exact _ _) (keeps_bin _ _) fun v => Exact.first (ih _)

theorem readTextRow_same (fp : FloatParse) {p : Bytes} (hp : Clean p) (cols : List Column) :
    readTextRow fp p cols = Verif.readTextRow fp p cols := congrArg Prod.fst (textRow_exact fp cols p hp)

theorem readBinRow_same {p : Bytes} (hp : Clean p) (cols : List Column) :
    readBinRow p cols = Verif.readBinRow p cols := by
  have : Exact Clean (do
      P.skip 1
      let bitmap ← NullBitmap.deserialize false cols.length
      Verif.binRowLoop bitmap 0 cols : P (List Value)) (do
      P.skip 1
      let bitmap ← NullBitmap.deserialize false cols.length
      binRowLoop bitmap 0 cols) :=
    Exact.then (keeps_skip _) fun _ => Exact.then (keeps_checkedEat _) fun bm => binRow_exact bm 0 cols
  exact congrArg Prod.fst (this p hp)

/-! ### calls -/

instance : Onward UsualStream := ⟨fun _ _ h hc c1 p c2 hs hr => hc c1 p c2 (hs.trans h) hr⟩

section
variable {α β : Type}

/-- reading a packet. -/
theorem Exact.read {f f' : Bytes → M β} (hf : ∀ p, Usual p → Exact UsualStream (f p) (f' p)) :
    Exact UsualStream (readPacket >>= f) (readPacket >>= f') := by
  intro c hc
  rcases h : readPacket c with ⟨o, c'⟩
  cases o with
  | ok p =>
    rw [SM.bind_of_ok h, SM.bind_of_ok h]
    exact hf p (hc c p c' (List.suffix_refl _) ((C76_packet _ _ _).1 h)) c' (Shrinks.readPacket.keeps c p c' hc h)
  | err e => rw [SM.bind_of_err h, SM.bind_of_err h]
  | panic => rw [SM.bind_of_panic h, SM.bind_of_panic h]

theorem decodeResponse_exact {p : Bytes} (hp : Usual p) : Exact UsualStream (Verif.decodeResponse p) (decodeResponse p) := by
  refine Exact.then Shrinks.get.keeps fun c => ?_
  cases p with
  | nil => exact Exact.refl _
  | cons b r =>
    have h1 : runP (readOk c.data.capabilities) (b :: r) = runP (OkPacket.readOk c.data.capabilities) (b :: r) :=
      congrArg Prod.fst (readOk_exact _ _ hp.lengths)
    have h2 : runP (errPacket c.data.capabilities) (b :: r) = runP (ErrPacket.deserialize c.data.capabilities) (b :: r) :=
      congrArg Prod.fst (errPacket_exact _ _ hp.lengths)
    dsimp only
    rw [h1, h2]
    exact Exact.refl _

theorem keeps_decodeResponse {p : Bytes} : Keeps UsualStream (Verif.decodeResponse p) := by
  refine Keeps.get.bind fun c => ?_
  cases p with
  | nil => exact Keeps.fail _
  | cons b r =>
    exact Keeps.ite ((Keeps.ofOut _).bind fun _ => Keeps.pure _) (Keeps.ite ((Keeps.ofOut _).bind fun _ => Keeps.pure _)
      (Keeps.fail _))

theorem readResponse_exact : Exact UsualStream Verif.readResponse readResponse := Exact.read fun _ hp => decodeResponse_exact hp

theorem cleanupLoop_exact : ∀ n, Exact UsualStream (Verif.cleanupLoop n) (cleanupLoop n)
  | 0 => Exact.refl _
  | n + 1 => by
    unfold Verif.cleanupLoop cleanupLoop
    refine Exact.read fun p hp => Exact.then Shrinks.get.keeps fun c => Exact.then (Keeps.ofOut _) fun last => ?_
    refine Exact.ite ?_ (cleanupLoop_exact n)
    have h : runP (readEof c.data.capabilities) p = runP (OkPacket.readEof c.data.capabilities) p :=
      congrArg Prod.fst (readEof_exact _ _ hp.lengths)
    rw [h]
    exact Exact.refl _

theorem shrinks_cleanupLoop : ∀ n, Shrinks (Verif.cleanupLoop n)
  | 0 => Shrinks.crash
  | n + 1 => by
    unfold Verif.cleanupLoop
    refine Shrinks.readPacket.bind fun _ => Shrinks.get.bind fun _ => (Shrinks.ofOut _).bind fun last => ?_
    split
    · exact (Shrinks.modify (by intro _; rfl)).bind fun _ => Shrinks.ofOut _
    · exact shrinks_cleanupLoop n

theorem cleanup_exact : Exact UsualStream Verif.cleanup cleanup := by
  intro c hc
  unfold Verif.cleanup cleanup
  by_cases hp : c.pendingResult = true
  · rw [if_pos hp, if_pos hp]
    exact Exact.first (f := fun ok => Pure.pure (some ok)) (cleanupLoop_exact _) c hc
  · rw [if_neg hp, if_neg hp]

theorem shrinks_cleanup : Shrinks Verif.cleanup := by
  intro c a c' h
  unfold Verif.cleanup at h
  by_cases hp : c.pendingResult = true
  · rw [if_pos hp] at h
    exact ((shrinks_cleanupLoop _).bind fun _ => Shrinks.pure _) c a c' h
  · rw [if_neg hp] at h
    cases h
    exact List.suffix_refl _

theorem executeCommand_exact (cmd : Command) (data : Bytes) :
    Exact UsualStream (Verif.executeCommand cmd data) (executeCommand cmd data) := Exact.first cleanup_exact

theorem writeCommand_exact (data : Bytes) : Exact UsualStream (Verif.writeCommand data) (writeCommand data) :=
  Exact.first cleanup_exact

theorem shrinks_executeCommand (cmd : Command) (data : Bytes) : Shrinks (Verif.executeCommand cmd data) :=
  shrinks_cleanup.bind fun _ => (Shrinks.modify (by intro _; rfl)).bind fun _ => Shrinks.writePacket _

theorem shrinks_writeCommand (data : Bytes) : Shrinks (Verif.writeCommand data) :=
  shrinks_cleanup.bind fun _ => (Shrinks.modify (by intro _; rfl)).bind fun _ => Shrinks.writePacket _

theorem readColumns_exact {p : Bytes} (hp : Usual p) : Exact UsualStream
    (do SM.modify fun c => { c with pendingResult := true }
        let n ← liftP (runP P.checkedEatLenencInt p)
        let cols ← Verif.readColumns n.toNat
        pure { columns := cols, okPacket := none } : M RSet)
    (do SM.modify fun c => { c with pendingResult := true }
        let n ← liftP (runP P.checkedEatLenencInt p)
        let cols ← readColumns (usize n)
        pure { columns := cols, okPacket := none }) := by
  refine Exact.then (Shrinks.modify (by intro _; rfl)).keeps fun _ => ?_
  rcases h : runP P.checkedEatLenencInt p with n | e | _
  · have hn : usize n = n.toNat ∧ n.toNat ≤ 41297762 := by
      obtain ⟨b, hb, e⟩ := (lenencInt_reads _ _ _).1 (Prod.ext h rfl : P.checkedEatLenencInt p = (.ok n, _))
      have := hp.columns n.toNat b _ e hb
      exact ⟨Nat.mod_eq_of_lt (by omega), this⟩
    intro c _
    show (readColumns (usize n) >>= fun cols => Pure.pure _ : M RSet) c =
      (Verif.readColumns n.toNat >>= fun cols => Pure.pure _ : M RSet) c
    unfold readColumns Verif.readColumns
    rw [hn.1, if_neg (by unfold columnLimit; omega), if_neg (by unfold Verif.columnLimit; omega)]
  · exact fun _ _ => rfl
  · exact fun _ _ => rfl

theorem read_exact : Exact UsualStream RSet.read read := by
  refine Exact.read fun p hp => Exact.then Shrinks.get.keeps fun c => ?_
  cases p with
  | nil => exact readColumns_exact hp
  | cons b r =>
    refine Exact.ite (Exact.first (decodeResponse_exact hp)) (Exact.ite (Exact.refl _) (Exact.ite ?_ (readColumns_exact hp)))
    have h2 : runP (errPacket c.data.capabilities) (b :: r) = runP (ErrPacket.deserialize c.data.capabilities) (b :: r) :=
      congrArg Prod.fst (errPacket_exact _ _ hp.lengths)
    rw [h2]
    exact Exact.refl _

/-- readers of rows. -/
structure ReaderSame {R : Type} (rd rd' : RowReader R) : Prop where
  row : ∀ p cols, Clean p → rd'.row p cols = rd.row p cols
  build : rd'.build = rd.build

theorem textReader_same {R : Type} (fp : FloatParse) (mk : List Column → List Value → Out ParseError R) :
    ReaderSame (Verif.textReader fp mk) (textReader fp mk) := ⟨fun _ _ hp => readTextRow_same fp hp _, rfl⟩

theorem binReader_same {R : Type} (mk : List Column → List Value → Out ParseError R) :
    ReaderSame (Verif.binReader mk) (binReader mk) := ⟨fun _ _ hp => readBinRow_same hp _, rfl⟩

section
variable {R : Type} {rd rd' : RowReader R} (h : ReaderSame rd rd')
include h

theorem next_exact (rs : RSet) : Exact UsualStream (rs.next rd) (next rd' rs) := by
  unfold RSet.next next
  refine Exact.ite (Exact.refl _) ?_
  refine Exact.read fun p hp => Exact.then Shrinks.get.keeps fun c => Exact.then (Keeps.ofOut _) fun last => ?_
  have h1 : runP (readEof c.data.capabilities) p = runP (OkPacket.readEof c.data.capabilities) p :=
    congrArg Prod.fst (readEof_exact _ _ hp.lengths)
  rw [h1, h.row p rs.columns hp.lengths, h.build]
  exact Exact.refl _

omit h in
theorem shrinks_next (rs : RSet) : Shrinks (rs.next rd) := by
  unfold RSet.next
  split
  · exact Shrinks.pure _
  · refine Shrinks.readPacket.bind fun _ => Shrinks.get.bind fun _ => (Shrinks.ofOut _).bind fun last => ?_
    split
    · exact (Shrinks.ofOut _).bind fun _ => (Shrinks.modify (by intro _; rfl)).bind fun _ => Shrinks.pure _
    · exact (Shrinks.ofOut _).bind fun _ => (Shrinks.ofOut _).bind fun _ => Shrinks.pure _

theorem collectLoop_exact : ∀ n (rs : RSet), Exact UsualStream (RSet.collectLoop rd n rs) (collectLoop rd' n rs)
  | 0, _ => Exact.refl _
  | n + 1, rs => by
    unfold RSet.collectLoop collectLoop
    refine Exact.bind (next_exact h rs) (shrinks_next rs).keeps fun x => ?_
    obtain ⟨rs1, r⟩ := x
    cases r with
    | none => exact Exact.refl _
    | some r => exact Exact.first (collectLoop_exact n rs1)

theorem collect_exact (rs : RSet) : Exact UsualStream (rs.collect rd) (collect rd' rs) := fun c hc =>
  collectLoop_exact h (c.rx.length + 2) rs c hc

theorem drain_exact (rs : RSet) : Exact UsualStream (rs.drain rd) (drain rd' rs) := Exact.first (collect_exact h rs)

theorem finish_exact (rs : RSet) : Exact UsualStream (rs.finish rd) (finish rd' rs) := by
  unfold RSet.finish finish
  cases rs.okPacket with
  | some p => exact Exact.refl _
  | none => exact Exact.first (drain_exact h rs)

omit h in
theorem slides_next (rs : RSet) : Slides Conn.rx (rs.next rd) := by
  have hx : ∀ n, Slides Conn.rx (Verif.readExact n) := by
    intro n c
    show (takeRx n c.rx).2 <:+ c.rx
    generalize c.rx = r
    induction n generalizing r with
    | zero => exact List.suffix_refl _
    | succ n ih =>
      cases r with
      | nil => exact List.suffix_refl _
      | cons x r =>
        cases x with
        | fault k => exact List.suffix_cons _ _
        | byte b =>
          have := ih r
          unfold takeRx
          split <;> rename_i e <;> rw [e] at this <;> exact this.trans (List.suffix_cons _ _)
  have hc : ∀ dst, Slides Conn.rx (Verif.readChunk dst) := by
    intro dst
    unfold Verif.readChunk
    refine (hx 4).bind fun m => ?_
    split
    · dsimp only
      split
      · exact Slides.pure _
      · refine (hx _).bind fun _ => ?_
        split <;> exact Slides.pure _
    · exact Slides.crash
  have hl : ∀ fuel dst, Slides Conn.rx (Verif.readPacketLoop fuel dst) := by
    intro fuel
    induction fuel with
    | zero => exact fun _ => Slides.crash
    | succ n ih =>
      intro dst
      unfold Verif.readPacketLoop
      refine (hc dst).bind fun x => Slides.get.bind fun c => ?_
      split
      · exact Slides.fail _
      · refine (Slides.modify (by intro _; rfl)).bind fun _ => ?_
        split
        · exact Slides.pure _
        · exact ih _
  have hr : Slides Conn.rx Verif.readPacket := fun c => hl _ _ c
  unfold RSet.next
  refine Slides.ite (Slides.pure _) (hr.bind fun p => Slides.get.bind fun c => (Slides.ofOut _).bind fun last => ?_)
  exact Slides.ite ((Slides.ofOut _).bind fun _ => (Slides.modify (by intro _; rfl)).bind fun _ => Slides.pure _)
    ((Slides.ofOut _).bind fun _ => (Slides.ofOut _).bind fun _ => Slides.pure _)

theorem one_exact (rs : RSet) : Exact UsualStream (rs.one rd) (one rd' rs) := by
  unfold RSet.one one
  refine Exact.bind ?_ ?_ fun res => ?_
  · intro c hc
    unfold SM.attempt
    rw [next_exact h rs c hc]
  · intro c a c' hc e
    refine Onward.later c c' ?_ hc
    have := (slides_next (rd := rd) rs).attempt c
    rw [e] at this
    exact this
  · cases res with
    | ok x => exact Exact.first (drain_exact h _)
    | error e => exact Exact.first (drain_exact h rs)

end

theorem query_exact (sql : Str) : Exact UsualStream (Verif.query sql) (query sql) :=
  Exact.bind (executeCommand_exact _ _) (shrinks_executeCommand _ _).keeps fun _ => read_exact

theorem executeQuery_exact (sql : Str) : Exact UsualStream (Verif.executeQuery sql) (executeQuery sql) :=
  Exact.bind (executeCommand_exact _ _) (shrinks_executeCommand _ _).keeps fun _ => Exact.first readResponse_exact

theorem prepare_exact (sql : Str) : Exact UsualStream (Verif.prepareStatement sql) (prepareStatement sql) := by
  refine Exact.bind (executeCommand_exact _ _) (shrinks_executeCommand _ _).keeps fun _ => ?_
  refine Exact.read fun p hp => Exact.then Shrinks.get.keeps fun c => ?_
  cases p with
  | nil => exact Exact.refl _
  | cons b r =>
    have h2 : runP (errPacket c.data.capabilities) (b :: r) = runP (ErrPacket.deserialize c.data.capabilities) (b :: r) :=
      congrArg Prod.fst (errPacket_exact _ _ hp.lengths)
    dsimp only
    rw [h2]
    exact Exact.refl _

theorem sendPieces_exact (id : UInt32) (i : Nat) : ∀ ps, Exact UsualStream (Verif.sendPieces id i ps) (sendPieces id i ps)
  | [] => Exact.refl _
  | _ :: ps => Exact.bind (writeCommand_exact _) (shrinks_writeCommand _).keeps fun _ => sendPieces_exact id i ps

theorem shrinks_sendPieces (id : UInt32) (i : Nat) : ∀ ps, Shrinks (Verif.sendPieces id i ps)
  | [] => Shrinks.pure _
  | _ :: ps => (shrinks_writeCommand _).bind fun _ => shrinks_sendPieces id i ps

theorem sendLongData_exact (id : UInt32) : ∀ i vs, Exact UsualStream (Verif.sendLongData id i vs) (sendLongData id i vs)
  | _, [] => Exact.refl _
  | i, _ :: vs => Exact.bind (sendPieces_exact id i _) (shrinks_sendPieces id i _).keeps fun _ => sendLongData_exact id (i + 1) vs

theorem shrinks_sendLongData (id : UInt32) : ∀ i vs, Shrinks (Verif.sendLongData id i vs)
  | _, [] => Shrinks.pure _
  | i, _ :: vs => (shrinks_sendPieces id i _).bind fun _ => shrinks_sendLongData id (i + 1) vs

theorem sendExecute_exact (id : UInt32) (vs : List Value) : Exact UsualStream (Verif.sendExecute id vs) (sendExecute id vs) :=
  Exact.then (Keeps.ofOut _) fun _ => Exact.ite
    (Exact.bind (sendLongData_exact id 0 vs) (shrinks_sendLongData id 0 vs).keeps fun _ => writeCommand_exact _)
    (writeCommand_exact _)

theorem shrinks_sendExecute (id : UInt32) (vs : List Value) : Shrinks (Verif.sendExecute id vs) := by
  refine (Shrinks.ofOut _).bind fun req => ?_
  split
  · exact (shrinks_sendLongData id 0 vs).bind fun _ => shrinks_writeCommand _
  · exact shrinks_writeCommand _

theorem stmtQuery_exact (p : Prepared) (vs : List Value) : Exact UsualStream (p.query vs) (stmtQuery p vs) :=
  Exact.ite (Exact.refl _) (Exact.bind (sendExecute_exact _ _) (shrinks_sendExecute _ _).keeps fun _ => read_exact)

theorem stmtExecute_exact (p : Prepared) (vs : List Value) : Exact UsualStream (p.execute vs) (stmtExecute p vs) :=
  Exact.ite (Exact.refl _) (Exact.bind (sendExecute_exact _ _) (shrinks_sendExecute _ _).keeps fun _ =>
    Exact.first readResponse_exact)

end

end Verif.Narrow

import Verif.Proofs.NoPanic
import Verif.Proofs.Auth
import Verif.Props.C28_Password
import Verif.Props.C12_Iteration
import Verif.Props.C57_Settings
import Verif.Props.C35_Pem

/-! # C53 — malformed server data never crashes the decoders -/

namespace Verif

theorem mapErr_not_panic {ε ε' α : Type} {f : ε → ε'} {o : Out ε α} (h : o ≠ .panic) :
    o.mapErr f ≠ .panic := by
  cases o <;> simp [Out.mapErr] at h ⊢

theorem ofByte_not_panic (b : UInt8) : ColumnType.ofByte b ≠ .panic := by
  have h : ∀ n < 256, ColumnType.ofByte (UInt8.ofNat n) ≠ .panic := by decide +kernel
  have := h b.toNat b.toNat_lt
  rwa [UInt8.ofNat_toNat] at this

theorem colFlag_not_panic (b : UInt16) : colFlagTryFrom b ≠ .panic := by
  unfold colFlagTryFrom
  split <;> (intro h; cases h)

theorem fromBytes_not_panic (n : Bytes) : AuthPlugin.fromBytes n ≠ .panic := by
  unfold AuthPlugin.fromBytes
  dsimp only
  repeat' split
  all_goals (intro h; cases h)

namespace Lens

theorem fromUtf8' {α : Type} (a : Bytes) (f : Str → P α) (e : ProtocolError) (h : ∀ x, Lens 0 (f x) 0) :
    Lens 0 (match fromUtf8 a with | some x => f x | none => SM.fail e) 0 := by
  cases fromUtf8 a with
  | some x => exact h x
  | none => exact fail _

theorem optStr : Lens 0 Verif.optStr 0 := by
  unfold Verif.optStr
  refine bind (attempt checkedEatLenencStr) fun r => ?_
  split <;> exact pure _ (Nat.le_refl _)

theorem readTail (caps : UInt32) (a l : UInt64) : Lens 0 (OkPacket.readTail caps a l) 0 := by
  unfold OkPacket.readTail
  refine bind checkedEatU16 fun st => bind checkedEatU16 fun w => bind optStr fun msg => ?_
  dsimp only
  split
  · exact bind optStr fun _ => pure _ (Nat.le_refl _)
  · exact bind (pure _ (Nat.le_refl _)) fun _ => pure _ (Nat.le_refl _)

theorem readOk (caps : UInt32) : Lens 0 (OkPacket.readOk caps) 0 := by
  unfold OkPacket.readOk
  exact bind checkedEatU8 fun _ => ite (bind (get (Nat.le_refl _)) fun _ => fail _)
    (bind checkedEatLenencInt fun _ => bind checkedEatLenencInt fun _ => readTail _ _ _)

theorem readEof (caps : UInt32) : Lens 0 (OkPacket.readEof caps) 0 := by
  unfold OkPacket.readEof
  exact bind (ignore checkedEatLenencInt) fun _ => bind (ignore checkedEatLenencInt) fun _ =>
    readTail _ _ _

theorem errTail (code : UInt16) (st : Option Bytes) : Lens 0
    (P.eatAll >>= fun rest => match fromUtf8 rest with
      | some msg => Pure.pure (ErrPacket.error code st msg)
      | none => SM.fail (.parse .fromUtf8)) 0 := by
  refine bind eatAll fun rest => ?_
  cases fromUtf8 rest with
  | some x => exact pure _ (Nat.le_refl _)
  | none => exact fail _

theorem errError (code : UInt16) (b : Bool) : Lens 0 (ErrPacket.deserializeError code b) 0 := by
  unfold ErrPacket.deserializeError
  dsimp only
  split
  · refine bind checkedEatU8 fun m => ite (bind (get (Nat.le_refl _)) fun _ => bind (fail _) fun _ => errTail _ _) ?_
    refine bind (checkedEat 5 (.inr rfl)) fun s => ?_
    cases fromUtf8 s with
    | some _ => exact bind (pure _ (Nat.le_refl _)) fun _ => errTail _ _
    | none => exact bind (fail _) fun _ => errTail _ _
  · exact bind (pure _ (Nat.le_refl _)) fun _ => errTail _ _

theorem errProgress : Lens 0 ErrPacket.deserializeProgress 0 := by
  unfold ErrPacket.deserializeProgress
  exact bind (m := 6) (checkLen 6 (by omega)) fun _ => bind (m := 5) (skip 1 (by omega)) fun _ =>
    bind (m := 4) (eatU8 (by omega)) fun _ => bind (m := 3) (eatU8 (by omega)) fun _ =>
    bind (m := 0) (eatU24 (by omega)) fun _ => bind checkedEatLenencSlice fun _ =>
    pure _ (Nat.le_refl _)

theorem errPacket (caps : UInt32) : Lens 0 (ErrPacket.deserialize caps) 0 := by
  unfold ErrPacket.deserialize
  exact bind (m := 3) (checkLen 3 (by omega)) fun _ => bind (m := 2) (eatU8 (by omega)) fun _ =>
    ite (bind (get (Nat.le_refl _)) fun _ => fail _) (bind (m := 0) (eatU16 (by omega)) fun _ =>
      ite errProgress (errError _ _))

theorem stmt : Lens 0 Stmt.deserialize 0 := by
  unfold Stmt.deserialize
  exact bind (m := 12) (checkLen 12 (by omega)) fun _ => bind (m := 11) (skip 1 (by omega)) fun _ =>
    bind (m := 7) (eatU32 (by omega)) fun _ => bind (m := 5) (eatU16 (by omega)) fun _ =>
    bind (m := 3) (eatU16 (by omega)) fun _ => bind (m := 2) (skip 1 (by omega)) fun _ =>
    bind (m := 0) (eatU16 (by omega)) fun _ => pure _ (Nat.le_refl _)

theorem columnDef : Lens 0 ColumnDef.deserialize 0 := by
  unfold ColumnDef.deserialize
  refine bind checkedEatU8Slice fun _ => ite (bind (get (Nat.le_refl _)) fun _ => fail _) ?_
  refine bind checkedEatU8Str fun _ => bind checkedEatU8Str fun _ => bind checkedEatU8Str fun _ =>
    bind checkedEatU8Str fun _ => bind checkedEatU8Str fun _ => ?_
  refine bind (m := 13) (checkLen 13 (by omega)) fun _ => bind (m := 12) (eatU8 (by omega)) fun _ =>
    ite (fail _) ?_
  exact bind (m := 10) (eatU16 (by omega)) fun _ => bind (m := 6) (eatU32 (by omega)) fun _ =>
    bind (m := 5) (eatU8 (by omega)) fun _ =>
    bind (m := 5) (ofOut (mapErr_not_panic (ofByte_not_panic _)) (by omega)) fun _ =>
    bind (m := 3) (eatU16 (by omega)) fun _ =>
    bind (m := 3) (ofOut (mapErr_not_panic (colFlag_not_panic _)) (by omega)) fun _ =>
    bind (m := 2) (eatU8 (by omega)) fun _ => bind (m := 0) (skip 2 (by omega)) fun _ =>
    pure _ (Nat.le_refl _)

theorem authPlugin : Lens 0 AuthPlugin.deserialize 0 := by
  unfold AuthPlugin.deserialize
  exact bind eatNullSlice fun _ => ofOut (fromBytes_not_panic _) (Nat.le_refl _)

theorem skip0 (j : Nat) : Lens 0 (P.skip j) 0 :=
  fun _ _ => ⟨(by intro h; cases h), fun _ _ _ => Nat.zero_le _⟩

theorem authSwitch : Lens 0 AuthSwitch.deserialize 0 := by
  unfold AuthSwitch.deserialize
  exact bind (skip0 1) fun _ => bind authPlugin fun _ => bind eatAll fun _ => pure _ (Nat.le_refl _)

theorem nullBitmap (client : Bool) (k : Nat) : Lens 0 (NullBitmap.deserialize client k) 0 :=
  checkedEat _ (.inr rfl)

/-! ### binary values -/

theorem date : Lens 0 deserializeDate 0 := by
  unfold deserializeDate
  refine bind checkedEatU8 fun len => bind (m := len.toNat) (checkLen _ (by omega)) fun _ => ?_
  split
  · exact bind (m := 2) (eatU16 (by omega)) fun _ => bind (m := 1) (eatU8 (by omega)) fun _ =>
      bind (m := 0) (eatU8 (by omega)) fun _ => pure _ (Nat.le_refl _)
  · exact pure _ (Nat.zero_le _)

theorem micro4 {α : Type} {n : Nat} (c : Prop) [Decidable c] (h : c → 4 ≤ n) (f : UInt32 → P α)
    (hf : ∀ x, Lens 0 (f x) 0) :
    Lens n (if c then P.eatU32 >>= f else Pure.pure 0 >>= f) 0 := by
  split
  · exact bind (m := 0) (eatU32 (by have := h ‹_›; omega)) hf
  · exact bind (m := 0) (pure _ (Nat.zero_le _)) hf

theorem datetime : Lens 0 deserializeDatetime 0 := by
  unfold deserializeDatetime
  dsimp only
  refine bind checkedEatU8 fun len => bind (m := len.toNat) (checkLen _ (by omega)) fun _ => ?_
  have h11 : len = 11 → len.toNat = 11 := by rintro rfl; rfl
  by_cases h4 : 4 ≤ len.toNat
  · rw [if_pos h4]
    refine bind (m := len.toNat - 2) (eatU16 (by omega)) fun _ =>
      bind (m := len.toNat - 3) (eatU8 (by omega)) fun _ =>
      bind (m := len.toNat - 4) (eatU8 (by omega)) fun _ =>
      bind (m := len.toNat - 4) (pure _ (by omega)) fun _ => ?_
    by_cases h7 : 7 ≤ len.toNat
    · rw [if_pos h7]
      refine bind (m := len.toNat - 5) (eatU8 (by omega)) fun _ =>
        bind (m := len.toNat - 6) (eatU8 (by omega)) fun _ =>
        bind (m := len.toNat - 7) (eatU8 (by omega)) fun _ =>
        bind (m := len.toNat - 7) (pure _ (by omega)) fun _ => ?_
      exact micro4 _ (fun h => by have := h11 h; omega) _ fun _ => pure _ (Nat.le_refl _)
    · rw [if_neg h7]
      refine bind (m := len.toNat - 4) (pure _ (by omega)) fun _ => ?_
      exact micro4 _ (fun h => by have := h11 h; omega) _ fun _ => pure _ (Nat.le_refl _)
  · rw [if_neg h4]
    refine bind (m := len.toNat) (pure _ (by omega)) fun _ => ?_
    rw [if_neg (by omega)]
    refine bind (m := len.toNat) (pure _ (by omega)) fun _ => ?_
    exact micro4 _ (fun h => by have := h11 h; omega) _ fun _ => pure _ (Nat.le_refl _)

theorem time : Lens 0 deserializeTime 0 := by
  unfold deserializeTime
  dsimp only
  refine bind checkedEatU8 fun len => bind (m := len.toNat) (checkLen _ (by omega)) fun _ => ?_
  have h12 : len = 12 → len.toNat = 12 := by rintro rfl; rfl
  by_cases h8 : 8 ≤ len.toNat
  · rw [if_pos h8]
    refine bind (m := len.toNat - 1) (eatU8 (by omega)) fun _ =>
      bind (m := len.toNat - 5) (eatU32 (by omega)) fun _ =>
      bind (m := len.toNat - 6) (eatU8 (by omega)) fun _ =>
      bind (m := len.toNat - 7) (eatU8 (by omega)) fun _ =>
      bind (m := len.toNat - 8) (eatU8 (by omega)) fun _ =>
      bind (m := len.toNat - 8) (pure _ (by omega)) fun _ => ?_
    exact micro4 _ (fun h => by have := h12 h; omega) _ fun _ => pure _ (Nat.le_refl _)
  · rw [if_neg h8]
    refine bind (m := len.toNat) (pure _ (by omega)) fun _ => ?_
    exact micro4 _ (fun h => by have := h12 h; omega) _ fun _ => pure _ (Nat.le_refl _)

end Lens

/-- the column types without a decoder: NEWDATE, the internal …2 types, TYPED_ARRAY, UNKNOWN. -/
def Spec.noBinary (t : ColumnType) : Bool :=
  t.toByte ∈ ([14, 17, 18, 19, 20, 243] : List UInt8)

theorem Lens.bin (t : ColumnType) (f : UInt16) (h : Spec.noBinary t = false) :
    Lens 0 (deserializeBin t f) 0 := by
  have hp : ∀ v : Value, Lens 0 (Pure.pure v) 0 := fun v => Lens.pure v (Nat.le_refl _)
  have hb : Lens 0 (do return .bytes (← P.checkedEatLenencSlice) : P Value) 0 :=
    Lens.bind Lens.checkedEatLenencSlice fun _ => hp _
  have h2 : ∀ b, Lens 0 (deserializeShort b) 0 := fun b =>
    Lens.ite (Lens.bind Lens.checkedEatU16 fun _ => hp _) (Lens.bind Lens.checkedEatU16 fun _ => hp _)
  have h4 : ∀ b, Lens 0 (deserializeInt b) 0 := fun b =>
    Lens.ite (Lens.bind Lens.checkedEatU32 fun _ => hp _) (Lens.bind Lens.checkedEatU32 fun _ => hp _)
  cases t with
  | tiny =>
    exact Lens.ite (Lens.bind Lens.checkedEatU8 fun _ => hp _) (Lens.bind Lens.checkedEatU8 fun _ => hp _)
  | short => exact h2 _
  | year => exact h2 _
  | long => exact h4 _
  | int24 => exact h4 _
  | longLong =>
    exact Lens.ite (Lens.bind Lens.checkedEatU64 fun _ => hp _) (Lens.bind Lens.checkedEatU64 fun _ => hp _)
  | float => exact Lens.bind Lens.checkedEatU32 fun _ => hp _
  | double => exact Lens.bind Lens.checkedEatU64 fun _ => hp _
  | date => exact Lens.date
  | timestamp => exact Lens.datetime
  | datetime => exact Lens.datetime
  | time => exact Lens.time
  | null => exact hp _
  | newDate => exact absurd h (by decide)
  | timestamp2 => exact absurd h (by decide)
  | datetime2 => exact absurd h (by decide)
  | time2 => exact absurd h (by decide)
  | typedArray => exact absurd h (by decide)
  | unknown => exact absurd h (by decide)
  | _ => exact hb

theorem isNull_not_panic (bm : Bytes) (i : Nat) (h : i + 2 < 8 * bm.length) :
    (NullBitmap.isNull false bm i : Out ProtocolError Bool) ≠ .panic := by
  unfold NullBitmap.isNull NullBitmap.byteAndBit
  have e : (i + NullBitmap.offset false) / 8 < bm.length := by
    show (i + 2) / 8 < bm.length
    omega
  dsimp only
  rw [if_pos e, Out.ok_bind]
  dsimp only
  rw [List.getElem?_eq_getElem e]
  intro h; cases h

theorem Lens.binRowLoop (bm : Bytes) (cols : List Column) (i : Nat)
    (h : ∀ c ∈ cols, Spec.noBinary c.type = false) (hl : i + cols.length + 2 ≤ 8 * bm.length) :
    Lens 0 (Verif.binRowLoop bm i cols) 0 := by
  induction cols generalizing i with
  | nil => exact Lens.pure _ (Nat.le_refl _)
  | cons c cs ih =>
    rw [List.length_cons] at hl
    have ih' := ih (i + 1) (fun x hx => h x (by simp [hx])) (by omega)
    unfold Verif.binRowLoop
    exact Lens.bind (Lens.ofOut (isNull_not_panic bm i (by omega)) (Nat.le_refl _)) fun _ =>
      Lens.ite (Lens.bind ih' fun _ => Lens.pure _ (Nat.le_refl _))
        (Lens.bind (Lens.bin _ _ (h c (by simp))) fun _ => Lens.bind ih' fun _ =>
          Lens.pure _ (Nat.le_refl _))

/-- **C53**, packets: none of the packet decoders panics, whatever bytes it is given. -/
theorem C53_packets (caps : UInt32) (bs : Bytes) :
    runP (OkPacket.readOk caps) bs ≠ .panic ∧ runP (OkPacket.readEof caps) bs ≠ .panic ∧
    runP (ErrPacket.deserialize caps) bs ≠ .panic ∧ runP Stmt.deserialize bs ≠ .panic ∧
    runP ColumnDef.deserialize bs ≠ .panic ∧ runP AuthSwitch.deserialize bs ≠ .panic :=
  ⟨(Lens.readOk caps).run bs, (Lens.readEof caps).run bs, (Lens.errPacket caps).run bs,
    Lens.stmt.run bs, Lens.columnDef.run bs, Lens.authSwitch.run bs⟩

/-- **C53**, fields: neither do the decoders of length-encoded integers, byte strings and texts, and of
NULL bitmaps. -/
theorem C53_fields (bs : Bytes) (client : Bool) (columns : Nat) :
    runP P.checkedEatLenencInt bs ≠ .panic ∧ runP P.checkedEatLenencSlice bs ≠ .panic ∧
    runP P.checkedEatLenencStr bs ≠ .panic ∧ runP (NullBitmap.deserialize client columns) bs ≠ .panic :=
  ⟨Lens.checkedEatLenencInt.run bs, Lens.checkedEatLenencSlice.run bs,
    Lens.checkedEatLenencStr.run bs, (Lens.nullBitmap client columns).run bs⟩

/-- **C53**, binary rows: no packet makes the row decoder panic, unless there is a column of a type
without a decoder. -/
theorem C53_binary_rows_partial (cols : List Column) (bs : Bytes)
    (h : ∀ c ∈ cols, Spec.noBinary c.type = false) : readBinRow bs cols ≠ .panic := by
  unfold readBinRow
  refine Lens.run (m := 0) (Lens.bind (Lens.skip0 1) fun _ => ?_) bs
  intro s _
  unfold NullBitmap.deserialize
  rw [SM.bind_apply]
  unfold P.checkedEat P.eat
  split
  · rename_i x a s' he
    split at he
    · cases he
      exact Lens.binRowLoop _ cols 0 h (by
        rw [List.length_take]
        unfold NullBitmap.bitmapLen NullBitmap.offset
        rw [Nat.min_eq_left (by assumption)]
        simp only [Bool.false_eq_true, if_false]
        omega) _ (Nat.zero_le _)
    · cases he
  · exact ⟨(by intro h; cases h), fun _ _ _ => Nat.zero_le _⟩
  · rename_i he
    split at he <;> cases he

/-- the column types without a text decoder, and those whose text has a fraction. -/
def Spec.noText (t : ColumnType) : Bool :=
  t.toByte ∈ ([6, 14, 17, 18, 19, 20, 243, 251] : List UInt8)
def Spec.hasFraction (t : ColumnType) : Bool := t.toByte ∈ ([7, 11, 12] : List UInt8)

theorem ofOption_not_panic {ε α : Type} (e : ε) (o : Option α) : Out.ofOption e o ≠ .panic := by
  cases o <;> (intro h; cases h)

theorem out_bind_not_panic {ε α β : Type} {o : Out ε α} {f : α → Out ε β} (h : o ≠ .panic)
    (hf : ∀ a, f a ≠ .panic) : (o >>= f) ≠ .panic := by
  cases o with
  | ok a => exact hf a
  | err e => intro h; cases h
  | panic => exact absurd rfl h

theorem dateText_not_panic (bs : Bytes) : dateText bs ≠ .panic := by
  unfold dateText dateTextInner
  refine out_bind_not_panic ?_ fun _ => by intro h; cases h
  dsimp only
  split
  · intro h; cases h
  · exact out_bind_not_panic (ofOption_not_panic _ _) fun _ => out_bind_not_panic (ofOption_not_panic _ _)
      fun _ => out_bind_not_panic (ofOption_not_panic _ _) fun _ => by intro h; cases h

theorem textValue_not_panic (fp : FloatParse) (t : ColumnType) (f : UInt16) (bs : Bytes)
    (h : Spec.noText t = false) (hf : Spec.hasFraction t = false) : textValue fp t f bs ≠ .panic := by
  have hi : ∀ (c : Bool) (x y : Option Value),
      (if c then Out.ofOption invalidData x else Out.ofOption invalidData y) ≠ .panic := by
    intro c x y
    cases c <;> exact ofOption_not_panic _ _
  cases t with
  | tiny => exact hi _ _ _
  | short => exact hi _ _ _
  | year => exact hi _ _ _
  | long => exact hi _ _ _
  | int24 => exact hi _ _ _
  | longLong => exact hi _ _ _
  | float => exact out_bind_not_panic (ofOption_not_panic _ _) fun _ => ofOption_not_panic _ _
  | double => exact out_bind_not_panic (ofOption_not_panic _ _) fun _ => ofOption_not_panic _ _
  | date => exact dateText_not_panic bs
  | timestamp => exact absurd hf (by decide)
  | datetime => exact absurd hf (by decide)
  | time => exact absurd hf (by decide)
  | null => exact absurd h (by decide)
  | longBlob => exact absurd h (by decide)
  | newDate => exact absurd h (by decide)
  | timestamp2 => exact absurd h (by decide)
  | datetime2 => exact absurd h (by decide)
  | time2 => exact absurd h (by decide)
  | typedArray => exact absurd h (by decide)
  | unknown => exact absurd h (by decide)
  | _ => intro h; cases h

/-- **C53**, text rows: no packet makes the row decoder panic, unless there is a column of a type
without a decoder or one whose text may have a fraction (more than six digits panic, C10). -/
theorem C53_text_rows_partial (fp : FloatParse) (cols : List Column) (bs : Bytes)
    (h : ∀ c ∈ cols, Spec.noText c.type = false ∧ Spec.hasFraction c.type = false) :
    readTextRow fp bs cols ≠ .panic := by
  refine Lens.run (m := 0) ?_ bs
  clear bs
  induction cols with
  | nil => exact Lens.pure _ (Nat.le_refl _)
  | cons c cs ih =>
    unfold textRowLoop
    refine Lens.bind (m := 0) ?_ fun _ => Lens.bind (ih fun x hx => h x (by simp [hx])) fun _ =>
      Lens.pure _ (Nat.le_refl _)
    unfold deserializeText
    refine Lens.bind (Lens.get (Nat.le_refl _)) fun s => ?_
    split
    · exact Lens.fail _
    · refine Lens.ite (Lens.bind (Lens.skip0 1) fun _ => Lens.pure _ (Nat.le_refl _))
        (Lens.bind Lens.checkedEatLenencSlice fun x => Lens.ofOut ?_ (Nat.le_refl _))
      exact textValue_not_panic fp _ _ _ (h c (by simp)).1 (h c (by simp)).2

/-! ### whole commands -/

/-- without rows pending, no panic, and no rows pending afterwards. -/
def Calm {α : Type} (m : M α) : Prop :=
  ∀ c, c.pendingResult = false → (m c).1 ≠ .panic ∧ (m c).2.pendingResult = false

namespace Calm

variable {α β : Type}

theorem pure (a : α) : Calm (Pure.pure a : M α) := fun _ h => ⟨(by intro h; cases h), h⟩
theorem fail (e : Error) : Calm (SM.fail e : M α) := fun _ h => ⟨(by intro h; cases h), h⟩
theorem get : Calm (SM.get : M Conn) := fun _ h => ⟨(by intro h; cases h), h⟩

theorem bind {m : M α} {f : α → M β} (hm : Calm m) (hf : ∀ a, Calm (f a)) : Calm (m >>= f) := by
  intro c hc
  obtain ⟨h1, h2⟩ := hm c hc
  rw [SM.bind_apply]
  match e : m c with
  | (.ok a, s) => rw [e] at h2; exact hf a s h2
  | (.err _, s) => rw [e] at h2; exact ⟨(by intro h; cases h), h2⟩
  | (.panic, s) => rw [e] at h1; exact absurd rfl h1

theorem ite {p : Prop} [Decidable p] {a b : M α} (ha : Calm a) (hb : Calm b) :
    Calm (if p then a else b) := by
  split <;> assumption

theorem ofOut {o : Out Error α} (h : o ≠ .panic) : Calm (SM.ofOut o : M α) := by
  intro c hc
  cases o with
  | ok a => exact ⟨(by intro h; cases h), hc⟩
  | err e => exact ⟨(by intro h; cases h), hc⟩
  | panic => exact absurd rfl h

theorem liftP {o : Out ProtocolError α} (h : o ≠ .panic) : Calm (Verif.liftP o) :=
  ofOut (mapErr_not_panic h)

theorem readPacket : Calm Verif.readPacket := fun c hc =>
  ⟨readPacket_not_panic c, (readPacket_pending c).trans hc⟩

theorem writePacket (bs : Bytes) : Calm (Verif.writePacket bs) := by
  intro c hc
  obtain ⟨t, f, s, o, h1, _, h2⟩ := writePacket_gen bs c
  rw [h1]
  refine ⟨?_, hc⟩
  rcases h2 with ⟨h, _⟩ | ⟨e, h⟩ <;> (rw [h]; intro h; cases h)

theorem cleanup : Calm Verif.cleanup := by
  intro c hc
  unfold Verif.cleanup
  rw [hc]
  exact ⟨(by intro h; cases h), hc⟩

theorem setSeq (b : UInt8) : Calm (SM.modify fun c => { c with seqId := b } : M Unit) :=
  fun _ h => ⟨(by intro h; cases h), h⟩

theorem executeCommand (cmd : Command) (data : Bytes) : Calm (Verif.executeCommand cmd data) := by
  unfold Verif.executeCommand
  exact bind cleanup fun _ => bind (setSeq _) fun _ => writePacket _

theorem writeCommand (bs : Bytes) : Calm (Verif.writeCommand bs) := by
  unfold Verif.writeCommand
  exact bind cleanup fun _ => bind (setSeq _) fun _ => writePacket _

theorem decodeResponse (p : Bytes) : Calm (Verif.decodeResponse p) := by
  unfold Verif.decodeResponse
  refine bind get fun c => ?_
  split
  · exact fail _
  · exact ite (bind (liftP (C53_packets _ _).1) fun _ => pure _)
      (ite (bind (liftP (C53_packets _ _).2.2.1) fun _ => pure _) (fail _))

theorem okOrServerError (r : Except ErrPacket OkPacket) : Calm (Verif.okOrServerError r) := by
  unfold Verif.okOrServerError
  split
  · exact pure _
  · exact fail _

theorem readResponse : Calm Verif.readResponse := by
  unfold Verif.readResponse
  exact bind readPacket fun _ => decodeResponse _

theorem skipPackets (n : Nat) : Calm (Verif.skipPackets n) := by
  induction n with
  | zero => exact pure _
  | succ n ih => unfold Verif.skipPackets; exact bind readPacket fun _ => ih

theorem sendPieces (id : UInt32) (i : Nat) (ps : List Bytes) : Calm (Verif.sendPieces id i ps) := by
  induction ps with
  | nil => exact pure _
  | cons p ps ih => unfold Verif.sendPieces; exact bind (writeCommand _) fun _ => ih

theorem sendLongData (id : UInt32) (i : Nat) (vs : List Value) : Calm (Verif.sendLongData id i vs) := by
  induction vs generalizing i with
  | nil => exact pure _
  | cons v vs ih => unfold Verif.sendLongData; exact bind (sendPieces _ _ _) fun _ => ih _

theorem sendExecute (id : UInt32) (vs : List Value) : Calm (Verif.sendExecute id vs) := by
  obtain ⟨bm, h1, -⟩ := ExecRequest.new_spec (ε := Error) id vs
  unfold Verif.sendExecute
  rw [h1]
  exact bind (ofOut (by intro h; cases h)) fun _ =>
    ite (bind (sendLongData _ _ _) fun _ => writeCommand _) (writeCommand _)

theorem executeQuery (sql : Str) : Calm (Verif.executeQuery sql) := by
  unfold Verif.executeQuery
  exact bind (executeCommand _ _) fun _ => bind readResponse fun _ => okOrServerError _

theorem prepareStatement (sql : Str) : Calm (Verif.prepareStatement sql) := by
  unfold Verif.prepareStatement
  refine bind (executeCommand _ _) fun _ => bind readPacket fun p => bind get fun c => ?_
  match p with
  | [] => exact fail _
  | b :: bs =>
    exact ite (bind (liftP (C53_packets 0 _).2.2.2.1) fun _ => bind (skipPackets _) fun _ => pure _)
      (ite (bind (liftP (C53_packets _ _).2.2.1) fun _ => fail _) (fail _))

theorem execute (p : Prepared) (vs : List Value) : Calm (p.execute vs) := by
  unfold Prepared.execute
  exact ite (fail _) (bind (sendExecute _ _) fun _ => bind readResponse fun _ => okOrServerError _)

end Calm

/-- `p` is one of the packets that are read from `c`, one after the other, before the first error. -/
inductive Received : Conn → Bytes → Prop where
  | here {c c' : Conn} {p : Bytes} : readPacket c = (.ok p, c') → Received c p
  | later {c c' : Conn} {p q : Bytes} : readPacket c = (.ok q, c') → Received c' p → Received c p

theorem isLast_not_panic {caps : UInt32} {p : Bytes} (h : p ≠ []) : isLast caps p ≠ .panic := by
  unfold isLast
  split
  · exact absurd rfl h
  · split <;> (intro h; cases h)

theorem frameCount_pos (p : Bytes) : 0 < Spec.frameCount p := by
  by_cases hl : p.length < MAX_PAYLOAD_LEN
  · rw [frameCount_short _ hl]; omega
  · rw [frameCount_long _ (by omega)]; omega

theorem readPacket_shorter {p : Bytes} {c c' : Conn} (h : readPacket c = (.ok p, c')) :
    c'.rx.length < c.rx.length := by
  obtain ⟨h1, -⟩ := readPacket_eq_ok h
  have h2 := length_frames c.seqId p
  have h3 := frameCount_pos p
  rw [h1, List.length_append, length_rxOf]
  omega

theorem cleanupLoop_not_panic (fuel : Nat) (c : Conn) (hf : c.rx.length < fuel)
    (h : ¬ Received c []) : (cleanupLoop fuel c).1 ≠ .panic := by
  induction fuel generalizing c with
  | zero => omega
  | succ fuel ih =>
    unfold cleanupLoop
    refine SM.safe_bind (readPacket_not_panic c) fun p c1 h1 => ?_
    have hp : p ≠ [] := by
      intro h0
      rw [h0] at h1
      exact h (.here h1)
    unfold SM.Safe
    rw [SM.get_bind_apply]
    refine SM.safe_bind (m := SM.ofOut _) ?_ fun l c2 h2 => ?_
    · have := isLast_not_panic (caps := c1.data.capabilities) hp
      unfold SM.Safe
      match e : isLast c1.data.capabilities p with
      | .ok _ => intro h; cases h
      | .err _ => intro h; cases h
      | .panic => exact absurd e this
    · have h2' : c2 = c1 := by
        match e : isLast c1.data.capabilities p with
        | .ok _ => rw [e] at h2; exact ((Prod.mk.inj h2).2).symm
        | .err _ => rw [e] at h2; cases h2
        | .panic => rw [e] at h2; cases h2
      subst h2'
      cases l with
      | true =>
        rw [if_pos rfl]
        unfold SM.Safe
        rw [SM.modify_bind_apply]
        unfold liftP
        match e : (runP (OkPacket.readEof c2.data.capabilities) p) with
        | .ok _ => intro h; cases h
        | .err _ => intro h; cases h
        | .panic => exact absurd e (C53_packets _ _).2.1
      | false =>
        rw [if_neg (by simp)]
        have := readPacket_shorter h1
        exact ih c2 (by omega) fun hr => h (.later h1 hr)

theorem cleanup_not_panic (c : Conn) (h : ¬ Received c []) : (cleanup c).1 ≠ .panic := by
  unfold cleanup
  split
  · exact SM.safe_bind (cleanupLoop_not_panic _ c (by omega) h) fun _ _ _ => by intro h; cases h
  · intro h; cases h

theorem cleanupLoop_pending (fuel : Nat) (c c' : Conn) (ok : OkPacket)
    (h : cleanupLoop fuel c = (.ok ok, c')) : c'.pendingResult = false := by
  induction fuel generalizing c with
  | zero => cases h
  | succ fuel ih =>
    unfold cleanupLoop at h
    obtain ⟨p, c1, h1, h⟩ := SM.bind_eq_ok.1 h
    rw [SM.get_bind_apply] at h
    obtain ⟨l, c2, h2, h⟩ := SM.bind_eq_ok.1 h
    cases l with
    | true =>
      rw [if_pos rfl, SM.modify_bind_apply] at h
      unfold liftP at h
      match e : (runP (OkPacket.readEof c1.data.capabilities) p) with
      | .ok _ => rw [e] at h; rw [← (Prod.mk.inj h).2]
      | .err _ => rw [e] at h; cases h
      | .panic => rw [e] at h; cases h
    | false =>
      rw [if_neg (by simp)] at h
      exact ih c2 h

theorem cleanup_pending {c c' : Conn} {o : Option OkPacket} (h : cleanup c = (.ok o, c')) :
    c'.pendingResult = false := by
  unfold cleanup at h
  by_cases hp : c.pendingResult = true
  · rw [if_pos hp] at h
    obtain ⟨ok, c1, h1, h⟩ := SM.bind_eq_ok.1 h
    rw [← (Prod.mk.inj h).2]
    exact cleanupLoop_pending _ _ _ _ h1
  · rw [if_neg hp] at h
    rw [← (Prod.mk.inj h).2]
    simpa using hp

/-- after `cleanup` came back, a command is as safe as without rows pending. -/
theorem after_cleanup {α : Type} {f : Option OkPacket → M α} (hf : ∀ o, Calm (f o)) (c : Conn)
    (h : (( cleanup >>= f) c).1 = .panic) : c.pendingResult = true ∧ Received c [] := by
  constructor
  · refine Decidable.byContradiction fun hp => ?_
    exact (Calm.bind Calm.cleanup hf c (by simpa using hp)).1 h
  · refine Classical.byContradiction fun hr => ?_
    exact SM.safe_bind (cleanup_not_panic c hr) (fun o c1 h1 => (hf o c1 (cleanup_pending h1)).1) h

/-- **C53**, whole calls: whatever bytes the server sends and wherever the stream fails, executing a
query, preparing a statement and closing the connection never panic, except when an empty packet
stands among the left-over rows of an abandoned result set. -/
theorem C53_calls_partial (sql : Str) (c : Conn) :
    ((executeQuery sql c).1 = .panic → c.pendingResult = true ∧ Received c []) ∧
    ((prepareStatement sql c).1 = .panic → c.pendingResult = true ∧ Received c []) ∧
    ((disconnect c).1 = .panic → c.pendingResult = true ∧ Received c []) := by
  refine ⟨fun h => ?_, fun h => ?_, fun h => ?_⟩
  · unfold executeQuery executeCommand at h
    rw [SM.bind_assoc] at h
    refine after_cleanup (fun o => ?_) c h
    exact Calm.bind (Calm.bind (Calm.setSeq _) fun _ => Calm.writePacket _)
      fun _ => Calm.bind Calm.readResponse fun _ => Calm.okOrServerError _
  · unfold prepareStatement executeCommand at h
    rw [SM.bind_assoc] at h
    refine after_cleanup (fun o => ?_) c h
    refine Calm.bind (Calm.bind (Calm.setSeq _) fun _ => Calm.writePacket _) fun _ =>
      Calm.bind Calm.readPacket fun p => Calm.bind Calm.get fun c => ?_
    match p with
    | [] => exact Calm.fail _
    | b :: bs =>
      exact Calm.ite (Calm.bind (Calm.liftP (C53_packets 0 _).2.2.2.1) fun _ =>
        Calm.bind (Calm.skipPackets _) fun _ => Calm.pure _)
        (Calm.ite (Calm.bind (Calm.liftP (C53_packets _ _).2.2.1) fun _ => Calm.fail _) (Calm.fail _))
  · unfold disconnect executeCommand at h
    exact after_cleanup (fun o => Calm.bind (Calm.setSeq _) fun _ => Calm.writePacket _) c h

/-- **C53**, executing a prepared statement. -/
theorem C53_execute_partial (p : Prepared) (values : List Value) (c : Conn)
    (hp : c.pendingResult = false) : (p.execute values c).1 ≠ .panic :=
  (Calm.execute p values c hp).1

theorem readColumnDefs_safe (n : Nat) (c : Conn) : (readColumnDefs n c).1 ≠ .panic := by
  induction n generalizing c with
  | zero => intro h; cases h
  | succ n ih =>
    unfold readColumnDefs
    refine SM.safe_bind (readPacket_not_panic c) fun p c1 _ => SM.safe_bind ?_ fun d c2 _ =>
      SM.safe_bind (ih c2) fun _ _ _ => by intro h; cases h
    unfold SM.Safe liftP
    match e : runP ColumnDef.deserialize p with
    | .ok _ => intro h; cases h
    | .err _ => intro h; cases h
    | .panic => exact absurd e (C53_packets 0 p).2.2.2.2.1

theorem lenenc_not_panic (p : Bytes) : runP P.checkedEatLenencInt p ≠ .panic :=
  Lens.run Lens.checkedEatLenencInt p

theorem readColumns_safe (n : Nat) (hn : n ≤ columnLimit) (c : Conn) : (readColumns n c).1 ≠ .panic := by
  unfold readColumns
  rw [if_neg (Nat.not_lt.2 hn)]
  exact readColumnDefs_safe n c

theorem count_safe (p : Bytes) (c : Conn) (hn : ∀ n, runP P.checkedEatLenencInt p = .ok n → n.toNat ≤ columnLimit) :
    ((do
      SM.modify fun c => { c with pendingResult := true }
      let n ← liftP (runP P.checkedEatLenencInt p)
      let cols ← readColumns n.toNat
      pure { columns := cols, okPacket := none } : M RSet) c).1 ≠ .panic := by
  rw [SM.modify_bind_apply]
  unfold liftP
  match e : runP P.checkedEatLenencInt p with
  | .ok n =>
    exact SM.safe_bind (m := readColumns n.toNat) (readColumns_safe _ (hn n e) _) fun _ _ _ => (by intro h; cases h)
  | .err _ => intro h; cases h
  | .panic => exact absurd e (lenenc_not_panic p)

/-- **C53**, the head of a result set: it panics for nothing but a request for a local file and a number of columns
there can be no room for. -/
theorem C53_head_partial (c : Conn) (h : (RSet.read c).1 = .panic) :
    ∃ p c', readPacket c = (.ok p, c') ∧
      (p.head? = some 0xFB ∨ ∃ n, runP P.checkedEatLenencInt p = .ok n ∧ columnLimit < n.toNat) := by
  refine Classical.byContradiction fun hn => ?_
  revert h
  unfold RSet.read
  refine SM.safe_bind (readPacket_not_panic c) fun p c1 h1 => ?_
  have hcount : ∀ n, runP P.checkedEatLenencInt p = .ok n → n.toNat ≤ columnLimit := fun n e =>
    Nat.le_of_not_lt fun hlt => hn ⟨p, c1, h1, Or.inr ⟨n, e, hlt⟩⟩
  unfold SM.Safe
  rw [SM.get_bind_apply]
  match p with
  | [] => exact count_safe _ _ hcount
  | b :: bs =>
    dsimp only
    by_cases h0 : b = 0x00
    · rw [if_pos h0]
      refine SM.safe_bind ?_ fun r c2 _ => SM.safe_bind ?_ fun _ _ _ => by intro h; cases h
      · subst h0
        unfold SM.Safe decodeResponse
        rw [SM.get_bind_apply]
        dsimp only
        rw [if_pos rfl]
        unfold liftP
        match e : runP (OkPacket.readOk c1.data.capabilities) (0 :: bs) with
        | .ok _ => intro h; cases h
        | .err _ => intro h; cases h
        | .panic => exact absurd e (C53_packets _ _).1
      · unfold okOrServerError
        cases r <;> (intro h; cases h)
    · rw [if_neg h0]
      by_cases h1' : b = 0xFB
      · subst h1'
        exact absurd ⟨_, _, h1, Or.inl rfl⟩ hn
      · rw [if_neg h1']
        by_cases h2 : b = 0xFF
        · rw [if_pos h2]
          unfold liftP
          match e : runP (ErrPacket.deserialize c1.data.capabilities) (b :: bs) with
          | .ok _ => intro h; cases h
          | .err _ => intro h; cases h
          | .panic => exact absurd e (C53_packets _ _).2.2.1
        · rw [if_neg h2]
          exact count_safe _ _ hcount

/-! ### where the claim fails -/

namespace C53

/-- a column of type INT. -/
def col : Column := { orgName := ['n'], name := ['n'], orgTable := ['t'], table := ['t'],
                      type := .long, flags := 0 }
def fp : FloatParse := { f32 := fun _ => none, f64 := fun _ => none }

end C53

/-- **C53 is violated** by an empty packet where a row is due, both when it is asked for … -/
theorem C53_empty_row_violated :
    (RSet.next (textReader C53.fp mkPlain) { columns := [C53.col], okPacket := none }
      (exConn [0, 0, 0, 1])).1 = .panic := by
  decide +kernel

/-- … and when the left-over rows are skipped before the next command. -/
theorem C53_empty_leftover_violated :
    (executeQuery "do 1".toList { exConn [0, 0, 0, 1] with pendingResult := true }).1 = .panic := by
  decide +kernel

/-- **C53 is violated** by a request for a local file. -/
theorem C53_local_infile_violated : (RSet.read (exConn [2, 0, 0, 1, 0xFB, 0x61])).1 = .panic := by
  decide +kernel

/-- **C53 is violated** by a packet of nine bytes that announces 2^60 columns. -/
theorem C53_columns_violated :
    (RSet.read (exConn [9, 0, 0, 1, 0xFE, 0, 0, 0, 0, 0, 0, 0, 0x10])).1 = .panic ∧
    (executeQuery "do 1".toList (exConn [9, 0, 0, 1, 0xFE, 0, 0, 0, 0, 0, 0, 0, 0x10])).1 ≠ .panic := by
  refine ⟨?_, ?_⟩ <;> decide +kernel

/-- **C53 is violated** by a text row with a column of type NULL, LONG_BLOB or one the crate does
not know, … -/
theorem C53_text_types_violated :
    ∀ t ∈ [ColumnType.null, .longBlob, .newDate, .timestamp2, .unknown],
      readTextRow C53.fp [1, 0x31] [{ C53.col with type := t }] = .panic := by
  decide +kernel

/-- … and by a binary row with one of the internal types. -/
theorem C53_binary_types_violated :
    ∀ t ∈ [ColumnType.newDate, .timestamp2, .datetime2, .time2, .typedArray, .unknown],
      readBinRow [0, 0, 1, 0x31] [{ C53.col with type := t }] = .panic := by
  decide +kernel

/-- **C53 is violated** by a time with seven digits of fraction. -/
theorem C53_fraction_violated :
    readTextRow C53.fp ([16] ++ utf8 "10:20:30.1234567".toList) [{ C53.col with type := .time }] = .panic := by
  decide +kernel

/-- **C53 is violated** by a server that refuses the connection (error 1040, too many connections)
instead of greeting: `unwrap` on the greeting. -/
theorem C53_refused_violated :
    (handleHandshake C28.asciiAlnum (Conn.initial C28.opts
      (rxOf (Spec.frames 0 ([0xFF, 0x10, 0x04] ++ utf8 "Too many connections".toList))) [])).1
      = .panic := by
  decide +kernel

/-- **C53 is violated** by a public key that ends too early. -/
theorem C53_key_violated : tryFromPem (Spec.text "-----BEGIN PUBLIC KEY-----\nMAcC\n-----END PUBLIC KEY-----\n") = .panic := by
  decide +kernel

-- decoders on garbage: an error, not a panic
example : runP (OkPacket.readOk 0xFFFF_FFFF) [0x00, 0xFE, 1, 2] = .err .eof ∧
    runP (ErrPacket.deserialize 0x200) [0xFF, 0x10] = .err .eof ∧
    runP ColumnDef.deserialize [3, 100, 101] = .err .eof ∧
    readTextRow C53.fp [5, 0x31] [C53.col] = .err .eof := by
  decide +kernel

-- a complete call on garbage
example : (executeQuery "do 1".toList (exConn [3, 0, 0, 1, 0xAB, 0xCD, 0xEF])).1
    = .err (.protocol (.unexpectedPacket [0xAB, 0xCD, 0xEF])) := by
  decide +kernel

end Verif

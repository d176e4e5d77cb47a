import Verif.Model.Io
import Verif.Spec.Packet
import Verif.Proofs.Wire

/-! Helper lemmas about the packet layer. -/

namespace Verif

theorem MAX_eq : MAX_PAYLOAD_LEN = Spec.maxFrame := rfl

/-! ### Headers -/

theorem leBytes_succ_top (k L s : Nat) (hL : L < 256 ^ k) (hs : s < 256) :
    leBytes (k + 1) (L + s * 256 ^ k) = leBytes k L ++ [UInt8.ofNat s] := by
  induction k generalizing L with
  | zero =>
    have : L = 0 := by simpa using hL
    subst this
    simp [leBytes, Nat.mod_eq_of_lt hs]
  | succ k ih =>
    rw [show leBytes (k + 1 + 1) (L + s * 256 ^ (k + 1)) = UInt8.ofNat ((L + s * 256 ^ (k + 1)) % 256) ::
      leBytes (k + 1) ((L + s * 256 ^ (k + 1)) / 256) from rfl,
      show leBytes (k + 1) L = UInt8.ofNat (L % 256) :: leBytes k (L / 256) from rfl, List.cons_append]
    have e : s * 256 ^ (k + 1) = 256 * (s * 256 ^ k) := by
      rw [Nat.pow_succ, ← Nat.mul_assoc, Nat.mul_comm]
    congr 1
    · congr 1; rw [e]; omega
    · have : (L + s * 256 ^ (k + 1)) / 256 = L / 256 + s * 256 ^ k := by rw [e]; omega
      rw [this, ih]
      rw [Nat.pow_succ] at hL; omega

theorem header_bytes (L : Nat) (seq : UInt8) (hL : L < 2 ^ 24) :
    leBytes 4 (UInt32.ofNat L ||| (UInt32.ofNat seq.toNat <<< 24)).toNat
      = leBytes 3 L ++ [seq] := by
  have hs := seq.toNat_lt
  have h1 : (UInt32.ofNat L ||| (UInt32.ofNat seq.toNat <<< 24)).toNat = L + seq.toNat * 256 ^ 3 := by
    rw [UInt32.toNat_or, UInt32.toNat_shiftLeft, uint32_toNat_ofNat_of_lt (by omega),
      uint32_toNat_ofNat_of_lt (by omega)]
    have h24 : (24 : UInt32).toNat % 32 = 24 := rfl
    rw [h24]
    have h2 : seq.toNat <<< 24 < 2 ^ 32 := by rw [Nat.shiftLeft_eq]; omega
    rw [Nat.mod_eq_of_lt h2, Nat.or_comm, ← Nat.shiftLeft_add_eq_or_of_lt hL, Nat.shiftLeft_eq]
    omega
  rw [h1, leBytes_succ_top 3 L seq.toNat (by omega) hs]
  simp

theorem header_bytes_zero (seq : UInt8) :
    leBytes 4 (UInt32.ofNat seq.toNat <<< 24).toNat = leBytes 3 0 ++ [seq] := by
  have h : UInt32.ofNat seq.toNat <<< 24 = UInt32.ofNat 0 ||| (UInt32.ofNat seq.toNat <<< 24) := by
    simp
  rw [h]
  exact header_bytes 0 seq (by omega)

/-! ### Spec framing, unfolded -/

theorem frames_short (seq : UInt8) (p : Bytes) (h : p.length < MAX_PAYLOAD_LEN) :
    Spec.frames seq p = leBytes 3 p.length ++ [seq] ++ p := by
  rw [Spec.frames, if_pos (by simpa [MAX_eq] using h), spec_le_eq]

theorem frames_long (seq : UInt8) (p : Bytes) (h : MAX_PAYLOAD_LEN ≤ p.length) :
    Spec.frames seq p = leBytes 3 MAX_PAYLOAD_LEN ++ [seq] ++ p.take MAX_PAYLOAD_LEN ++
      Spec.frames (seq + 1) (p.drop MAX_PAYLOAD_LEN) := by
  rw [Spec.frames, if_neg (by rw [← MAX_eq]; omega), spec_le_eq, ← MAX_eq]

theorem frameCount_short (p : Bytes) (h : p.length < MAX_PAYLOAD_LEN) : Spec.frameCount p = 1 := by
  unfold Spec.frameCount Spec.maxFrame
  unfold MAX_PAYLOAD_LEN at h
  omega

theorem frameCount_long (p : Bytes) (h : MAX_PAYLOAD_LEN ≤ p.length) :
    Spec.frameCount p = 1 + Spec.frameCount (p.drop MAX_PAYLOAD_LEN) := by
  unfold Spec.frameCount Spec.maxFrame
  rw [List.length_drop]
  unfold MAX_PAYLOAD_LEN at *
  omega

theorem seq_add_one_add (s : UInt8) (n : Nat) :
    s + 1 + UInt8.ofNat n = s + UInt8.ofNat (1 + n) := by
  rw [UInt8.ofNat_add, UInt8.add_assoc]; rfl

theorem leNat_three_eq (a b d : UInt8) :
    a.toNat + 256 * b.toNat + 65536 * d.toNat = leNat [a, b, d] := by
  simp only [leNat]; omega

/-- the receiver of the specification understands `frames`. -/
theorem receive_frames (fuel : Nat) (seq : UInt8) (p rest : Bytes)
    (hfuel : Spec.frameCount p ≤ fuel) :
    Spec.receive fuel seq (Spec.frames seq p ++ rest)
      = some (p, seq + UInt8.ofNat (Spec.frameCount p), rest) := by
  induction fuel generalizing p seq with
  | zero => simp [Spec.frameCount] at hfuel
  | succ fuel ih =>
    have h3 : ∀ n, n < 2 ^ 24 → ∃ a b d, leBytes 3 n = [a, b, d] ∧
        a.toNat + 256 * b.toNat + 65536 * d.toNat = n := by
      intro n hn
      refine ⟨_, _, _, rfl, ?_⟩
      rw [leNat_three_eq]
      exact leNat_leBytes_of_lt (k := 3) (by omega)
    by_cases hl : p.length < MAX_PAYLOAD_LEN
    · obtain ⟨a, b, d, h1, h2⟩ := h3 p.length (by unfold MAX_PAYLOAD_LEN at hl; omega)
      rw [frames_short _ _ hl, h1, frameCount_short _ hl]
      simp only [List.cons_append, List.nil_append, Spec.receive, h2]
      rw [if_neg (by simp), if_neg (by simp), if_pos (by rw [← MAX_eq]; exact hl)]
      simp
    · have hl' : MAX_PAYLOAD_LEN ≤ p.length := by omega
      obtain ⟨a, b, d, h1, h2⟩ := h3 MAX_PAYLOAD_LEN (by unfold MAX_PAYLOAD_LEN; omega)
      have htl : (p.take MAX_PAYLOAD_LEN).length = MAX_PAYLOAD_LEN := by
        rw [List.length_take]; omega
      rw [frames_long _ _ hl', h1, frameCount_long _ hl']
      simp only [List.cons_append, List.nil_append, List.append_assoc, Spec.receive, h2]
      rw [if_neg (by simp), if_neg (by simp only [List.length_append, htl]; omega),
        if_neg (by rw [← MAX_eq]; omega)]
      have hd : ∀ r : Bytes, (p.take MAX_PAYLOAD_LEN ++ r).drop MAX_PAYLOAD_LEN = r := by
        intro r; exact List.drop_left' htl
      have ht : ∀ r : Bytes, (p.take MAX_PAYLOAD_LEN ++ r).take MAX_PAYLOAD_LEN
          = p.take MAX_PAYLOAD_LEN := by
        intro r; exact List.take_left' htl
      rw [hd, ht, ih _ _ (by rw [frameCount_long _ hl'] at hfuel; omega)]
      simp only [List.take_append_drop, seq_add_one_add]

/-! ### Writing -/

theorem writeRaw_ok (bs : Bytes) (c : Conn) (h : c.wfaults = []) :
    writeRaw bs c = (.ok (), { c with tx := c.tx ++ bs }) := by
  unfold writeRaw; rw [h]

theorem writeChunks_nil (c : Conn) : writeChunks [] c = (.ok (), c) := by
  rw [writeChunks]; simp

theorem writeChunks_short (bs : Bytes) (c : Conn) (h0 : bs ≠ []) (hl : bs.length ≤ MAX_PAYLOAD_LEN)
    (h : c.wfaults = []) :
    writeChunks bs c = (.ok (), { c with
      tx := c.tx ++ (leBytes 3 bs.length ++ [c.seqId] ++ bs), seqId := c.seqId + 1 }) := by
  rw [writeChunks, dif_neg h0]
  have hm : min bs.length MAX_PAYLOAD_LEN = bs.length := Nat.min_eq_left hl
  simp only [hm, SM.get_bind_apply]
  rw [header_bytes _ _ (by unfold MAX_PAYLOAD_LEN at hl; omega)]
  rw [SM.bind_of_ok (writeRaw_ok _ c h), SM.bind_of_ok (writeRaw_ok _ _ (by simp [h]))]
  simp only [SM.modify_bind_apply, List.take_length, List.drop_length]
  rw [writeChunks_nil]
  simp

theorem writeChunks_long (bs : Bytes) (c : Conn) (hl : MAX_PAYLOAD_LEN ≤ bs.length)
    (h : c.wfaults = []) :
    writeChunks bs c = writeChunks (bs.drop MAX_PAYLOAD_LEN) { c with
      tx := c.tx ++ (leBytes 3 MAX_PAYLOAD_LEN ++ [c.seqId] ++ bs.take MAX_PAYLOAD_LEN),
      seqId := c.seqId + 1 } := by
  have h0 : bs ≠ [] := by
    intro h; rw [h, List.length_nil] at hl; unfold MAX_PAYLOAD_LEN at hl; omega
  rw [writeChunks, dif_neg h0]
  have hm : min bs.length MAX_PAYLOAD_LEN = MAX_PAYLOAD_LEN := Nat.min_eq_right hl
  simp only [hm, SM.get_bind_apply]
  rw [header_bytes _ _ (by unfold MAX_PAYLOAD_LEN; omega)]
  rw [SM.bind_of_ok (writeRaw_ok _ c h), SM.bind_of_ok (writeRaw_ok _ _ (by simp [h]))]
  simp only [SM.modify_bind_apply, List.append_assoc]

theorem writePacket_long (bs : Bytes) (c : Conn) (hl : MAX_PAYLOAD_LEN ≤ bs.length)
    (h : c.wfaults = []) :
    writePacket bs c = writePacket (bs.drop MAX_PAYLOAD_LEN) { c with
      tx := c.tx ++ (leBytes 3 MAX_PAYLOAD_LEN ++ [c.seqId] ++ bs.take MAX_PAYLOAD_LEN),
      seqId := c.seqId + 1 } := by
  unfold writePacket
  have e : (bs.length % MAX_PAYLOAD_LEN = 0) = ((bs.drop MAX_PAYLOAD_LEN).length % MAX_PAYLOAD_LEN = 0) := by
    rw [List.length_drop, ← Nat.mod_eq_sub_mod hl]
  rw [SM.bind_apply, SM.bind_apply, writeChunks_long bs c hl h]
  simp only [e]

theorem writePacket_ok (bs : Bytes) (c : Conn) (h : c.wfaults = []) :
    writePacket bs c = (.ok (), { c with
      tx := c.tx ++ Spec.frames c.seqId bs,
      seqId := c.seqId + UInt8.ofNat (Spec.frameCount bs) }) := by
  induction hn : bs.length using Nat.strongRecOn generalizing bs c with
  | _ n ih =>
  by_cases hl : MAX_PAYLOAD_LEN ≤ bs.length
  · rw [writePacket_long bs c hl h]
    rw [ih (bs.drop MAX_PAYLOAD_LEN).length
      (by rw [List.length_drop, ← hn]; unfold MAX_PAYLOAD_LEN at *; omega) _ _ (by simpa using h) rfl]
    rw [frames_long _ _ hl, frameCount_long _ hl]
    simp only [List.append_assoc, seq_add_one_add]
  · have hl' : bs.length < MAX_PAYLOAD_LEN := by omega
    rw [frames_short _ _ hl', frameCount_short _ hl']
    unfold writePacket
    by_cases h0 : bs = []
    · subst h0
      rw [SM.bind_of_ok (writeChunks_nil c), if_pos (by simp)]
      simp only [SM.get_bind_apply]
      rw [header_bytes_zero, SM.bind_of_ok (writeRaw_ok _ c h)]
      simp
    · rw [SM.bind_of_ok (writeChunks_short bs c h0 (by omega) h)]
      have hp : 0 < bs.length := List.length_pos_iff.mpr h0
      rw [if_neg (by rw [Nat.mod_eq_of_lt hl']; omega)]
      simp

/-- whatever write failures occur: what was sent is a prefix of the framed payload; nothing but
the write side and the sequence number changes; on success everything was sent. -/
theorem writeRaw_gen (bs : Bytes) (c : Conn) :
    ∃ t f o, writeRaw bs c = (o, { c with tx := c.tx ++ t, wfaults := f }) ∧ t <+: bs ∧
      ((o = .ok () ∧ t = bs) ∨ ∃ e, o = .err e) := by
  unfold writeRaw
  split
  · rename_i h
    exact ⟨bs, [], .ok (), by rw [← h], List.prefix_refl _, .inl ⟨rfl, rfl⟩⟩
  · exact ⟨bs, _, .ok (), rfl, List.prefix_refl _, .inl ⟨rfl, rfl⟩⟩
  · rename_i k e f _
    exact ⟨bs.take k, f, _, rfl, List.take_prefix _ _, .inr ⟨_, rfl⟩⟩

/-- `frames` without the trailing short frame for a payload of positive length: what
`writeChunks` puts on the wire. -/
theorem writePacket_gen (bs : Bytes) (c : Conn) :
    ∃ t f s o, writePacket bs c = (o, { c with tx := c.tx ++ t, wfaults := f, seqId := s }) ∧
      t <+: Spec.frames c.seqId bs ∧
      ((o = .ok () ∧ t = Spec.frames c.seqId bs ∧
          s = c.seqId + UInt8.ofNat (Spec.frameCount bs)) ∨ ∃ e, o = .err e) := by
  induction hn : bs.length using Nat.strongRecOn generalizing bs c with
  | _ n ih =>
  unfold writePacket
  by_cases h0 : bs = []
  · subst h0
    rw [SM.bind_of_ok (writeChunks_nil c), if_pos (by simp)]
    simp only [SM.get_bind_apply]
    rw [header_bytes_zero]
    have hfr : Spec.frames c.seqId [] = leBytes 3 0 ++ [c.seqId] := by
      rw [frames_short _ _ (by simp [MAX_PAYLOAD_LEN])]; simp
    have hfc : Spec.frameCount [] = 1 := frameCount_short _ (by simp [MAX_PAYLOAD_LEN])
    obtain ⟨t, f, o, h1, h2, h3⟩ := writeRaw_gen (leBytes 3 0 ++ [c.seqId]) c
    rcases h3 with ⟨ho, ht⟩ | ⟨e, ho⟩
    · subst ho; subst ht
      rw [SM.bind_of_ok h1]
      refine ⟨_, f, c.seqId + 1, .ok (), rfl, by rw [hfr]; exact List.prefix_refl _, .inl ⟨rfl, hfr.symm, by rw [hfc]; rfl⟩⟩
    · subst ho
      rw [SM.bind_of_err h1]
      exact ⟨t, f, c.seqId, _, rfl, by rw [hfr]; exact h2, .inr ⟨e, rfl⟩⟩
  · have hp : 0 < bs.length := List.length_pos_iff.mpr h0
    -- the first frame
    have hm : min bs.length MAX_PAYLOAD_LEN < 2 ^ 24 := by unfold MAX_PAYLOAD_LEN; omega
    have hfr : Spec.frames c.seqId bs = leBytes 3 (min bs.length MAX_PAYLOAD_LEN) ++ [c.seqId] ++
        (bs.take (min bs.length MAX_PAYLOAD_LEN) ++
          (if MAX_PAYLOAD_LEN ≤ bs.length then
            Spec.frames (c.seqId + 1) (bs.drop MAX_PAYLOAD_LEN) else [])) := by
      by_cases hl : MAX_PAYLOAD_LEN ≤ bs.length
      · rw [frames_long _ _ hl, Nat.min_eq_right hl, if_pos hl]; simp
      · rw [frames_short _ _ (by omega), Nat.min_eq_left (by omega), if_neg hl]; simp
    rw [writeChunks, dif_neg h0]
    rw [SM.bind_apply]
    simp only [SM.get_bind_apply]
    rw [header_bytes _ _ hm]
    obtain ⟨t1, f1, o1, h11, h12, h13⟩ :=
      writeRaw_gen (leBytes 3 (min bs.length MAX_PAYLOAD_LEN) ++ [c.seqId]) c
    rcases h13 with ⟨ho, ht⟩ | ⟨e, ho⟩
    rotate_left
    · subst ho
      rw [SM.bind_of_err h11]
      refine ⟨t1, f1, c.seqId, _, rfl, ?_, .inr ⟨e, rfl⟩⟩
      rw [hfr]; exact List.IsPrefix.trans h12 (List.prefix_append _ _)
    subst ho; subst ht
    rw [SM.bind_of_ok h11]
    obtain ⟨t2, f2, o2, h21, h22, h23⟩ :=
      writeRaw_gen (bs.take (min bs.length MAX_PAYLOAD_LEN))
        { c with tx := c.tx ++ (leBytes 3 (min bs.length MAX_PAYLOAD_LEN) ++ [c.seqId]), wfaults := f1 }
    rcases h23 with ⟨ho, ht⟩ | ⟨e, ho⟩
    rotate_left
    · subst ho
      rw [SM.bind_of_err h21]
      refine ⟨leBytes 3 (min bs.length MAX_PAYLOAD_LEN) ++ [c.seqId] ++ t2, f2, c.seqId, _, ?_, ?_, .inr ⟨e, rfl⟩⟩
      · simp
      · rw [hfr]
        exact (List.prefix_append_right_inj _).mpr
          (List.IsPrefix.trans h22 (List.prefix_append _ _))
    subst ho; subst ht
    rw [SM.bind_of_ok h21]
    simp only [SM.modify_bind_apply]
    by_cases hl : MAX_PAYLOAD_LEN ≤ bs.length
    · have hlt : (bs.drop (min bs.length MAX_PAYLOAD_LEN)).length < n := by
        rw [List.length_drop, ← hn]; unfold MAX_PAYLOAD_LEN at *; omega
      obtain ⟨t, f, s, o, h1, h2, h3⟩ := ih _ hlt (bs.drop (min bs.length MAX_PAYLOAD_LEN))
        { c with tx := c.tx ++ (leBytes 3 (min bs.length MAX_PAYLOAD_LEN) ++ [c.seqId]) ++
          bs.take (min bs.length MAX_PAYLOAD_LEN), wfaults := f2, seqId := c.seqId + 1 } rfl
      unfold writePacket at h1
      rw [SM.bind_apply] at h1
      have e : (bs.length % MAX_PAYLOAD_LEN = 0) =
          ((bs.drop (min bs.length MAX_PAYLOAD_LEN)).length % MAX_PAYLOAD_LEN = 0) := by
        rw [List.length_drop, Nat.min_eq_right hl, ← Nat.mod_eq_sub_mod hl]
      simp only [e]
      rw [h1]
      rw [if_pos hl] at hfr
      rw [Nat.min_eq_right hl] at *
      refine ⟨leBytes 3 MAX_PAYLOAD_LEN ++ [c.seqId] ++ (bs.take MAX_PAYLOAD_LEN ++ t), f, s, o, ?_, ?_, ?_⟩
      · simp
      · rw [hfr]
        exact (List.prefix_append_right_inj _).mpr ((List.prefix_append_right_inj _).mpr h2)
      · rcases h3 with ⟨ho, ht, hs⟩ | he
        · left
          refine ⟨ho, by rw [hfr, ht], ?_⟩
          rw [hs, frameCount_long _ hl, seq_add_one_add]
        · exact .inr he
    · have hml : min bs.length MAX_PAYLOAD_LEN = bs.length := Nat.min_eq_left (by omega)
      rw [hml] at hfr ⊢
      rw [if_neg hl] at hfr
      rw [List.drop_length, writeChunks_nil]
      simp only
      rw [if_neg (by rw [Nat.mod_eq_of_lt (by omega)]; omega)]
      refine ⟨leBytes 3 bs.length ++ [c.seqId] ++ bs, f2, c.seqId + 1, .ok (), ?_, ?_, .inl ⟨rfl, ?_, ?_⟩⟩
      · simp
      · rw [hfr]; simp
      · rw [hfr]; simp
      · rw [frameCount_short _ (by omega)]; rfl

/-! ### Reading -/

/-- the tape that delivers the given bytes. -/
def rxOf (bs : Bytes) : List Rx := bs.map Rx.byte

@[simp] theorem rxOf_nil : rxOf [] = [] := rfl
@[simp] theorem rxOf_cons (b : UInt8) (bs : Bytes) : rxOf (b :: bs) = .byte b :: rxOf bs := rfl
@[simp] theorem rxOf_append (a b : Bytes) : rxOf (a ++ b) = rxOf a ++ rxOf b := by simp [rxOf]
@[simp] theorem length_rxOf (a : Bytes) : (rxOf a).length = a.length := by simp [rxOf]

theorem rxOf_inj {a b : Bytes} (h : rxOf a = rxOf b) : a = b := by
  unfold rxOf at h
  exact (List.map_inj_right (fun _ _ hxy => by injection hxy)).mp h

theorem takeRx_rxOf (bs : Bytes) (r : List Rx) : takeRx bs.length (rxOf bs ++ r) = (.ok bs, r) := by
  induction bs with
  | nil => simp [takeRx]
  | cons b bs ih => simp [takeRx, ih]

theorem takeRx_eq_ok {n : Nat} {r r' : List Rx} {bs : Bytes} (h : takeRx n r = (.ok bs, r')) :
    r = rxOf bs ++ r' ∧ bs.length = n := by
  induction n generalizing r bs with
  | zero => simp [takeRx] at h; obtain ⟨rfl, rfl⟩ := h; simp
  | succ n ih =>
    cases r with
    | nil => simp [takeRx] at h
    | cons x r =>
      cases x with
      | fault k => simp [takeRx] at h
      | byte b =>
        simp only [takeRx] at h
        split at h
        · rename_i bs' r'' h'
          simp at h
          obtain ⟨rfl, rfl⟩ := h
          obtain ⟨h1, h2⟩ := ih h'
          simp [h1, h2]
        · rename_i x r'' hne h'
          simp only [Prod.mk.injEq] at h
          obtain ⟨rfl, rfl⟩ := h
          exact absurd rfl (hne bs)

theorem takeRx_not_panic (n : Nat) (r : List Rx) : (takeRx n r).1 ≠ .panic := by
  induction n generalizing r with
  | zero => simp [takeRx]
  | succ n ih =>
    cases r with
    | nil => simp [takeRx]
    | cons x r =>
      cases x with
      | fault k => simp [takeRx]
      | byte b =>
        have := ih r
        simp only [takeRx]
        split
        · simp
        · rename_i h; rw [h] at this; exact this

theorem takeRx_length_le (n : Nat) (r : List Rx) : (takeRx n r).2.length ≤ r.length := by
  induction n generalizing r with
  | zero => simp [takeRx]
  | succ n ih =>
    cases r with
    | nil => simp [takeRx]
    | cons x r =>
      cases x with
      | fault k => simp [takeRx]
      | byte b =>
        have := ih r
        simp only [takeRx]
        split
        · rename_i h; rw [h] at this; simp at *; omega
        · rename_i h; rw [h] at this; simp at *; omega

theorem readExact_ok {n : Nat} (bs : Bytes) (r : List Rx) (c : Conn) (hn : bs.length = n)
    (hc : c.rx = rxOf bs ++ r) : readExact n c = (.ok bs, { c with rx := r }) := by
  subst hn
  unfold readExact
  rw [hc, takeRx_rxOf]
  rfl

theorem readExact_eq_ok {n : Nat} {bs : Bytes} {c c' : Conn} (h : readExact n c = (.ok bs, c')) :
    c.rx = rxOf bs ++ c'.rx ∧ bs.length = n ∧ c' = { c with rx := c'.rx } := by
  unfold readExact at h
  simp only [Prod.mk.injEq] at h
  obtain ⟨h1, h2⟩ := h
  have h3 : (takeRx n c.rx).1 = .ok bs := by
    cases h4 : (takeRx n c.rx).1 <;> rw [h4] at h1 <;> simp at h1
    rw [h1]
  have h5 : takeRx n c.rx = (.ok bs, c'.rx) := by rw [← h2, ← h3]
  obtain ⟨h6, h7⟩ := takeRx_eq_ok h5
  exact ⟨h6, h7, by rw [← h2]⟩

theorem readExact_not_panic (n : Nat) (c : Conn) : (readExact n c).1 ≠ .panic := by
  unfold readExact
  have := takeRx_not_panic n c.rx
  cases h : (takeRx n c.rx).1 <;> simp_all

theorem leNat_three (l0 l1 l2 : UInt8) : leNat [l0, l1, l2] < 2 ^ 24 := by
  have := leNat_lt [l0, l1, l2]
  simpa using this

theorem leBytes_three_leNat (l0 l1 l2 : UInt8) : leBytes 3 (leNat [l0, l1, l2]) = [l0, l1, l2] :=
  leBytes_leNat [l0, l1, l2]

theorem readChunk_header (dst : Bytes) (n : Nat) (q : UInt8) (hn : n < 2 ^ 24) (r : List Rx) (c : Conn)
    (hc : c.rx = rxOf (leBytes 3 n ++ [q]) ++ r) :
    readChunk dst c = (if n = 0 then pure (q, true, dst)
    else do
      let chunk ← readExact n
      let dst' := dst ++ chunk
      if dst'.length % MAX_PAYLOAD_LEN = 0 then pure (q, false, dst')
      else pure (q, true, dst') : M (UInt8 × Bool × Bytes)) { c with rx := r } := by
  unfold readChunk
  rw [SM.bind_of_ok (readExact_ok _ r c (by simp) hc)]
  have h3 : ∃ a b d, leBytes 3 n = [a, b, d] := ⟨_, _, _, rfl⟩
  obtain ⟨a, b, d, habd⟩ := h3
  rw [habd]
  simp only [List.cons_append, List.nil_append]
  rw [← habd, leNat_leBytes_of_lt (by omega)]

theorem readChunk_data (dst chunk : Bytes) (q : UInt8) (r : List Rx) (c : Conn)
    (hlen : chunk.length < 2 ^ 24)
    (hc : c.rx = rxOf (leBytes 3 chunk.length ++ [q] ++ chunk) ++ r) :
    readChunk dst c = (.ok (q, decide (chunk.length = 0 ∨ (dst ++ chunk).length % MAX_PAYLOAD_LEN ≠ 0),
      dst ++ chunk), { c with rx := r }) := by
  rw [readChunk_header dst chunk.length q hlen (rxOf chunk ++ r) c (by rw [hc]; simp)]
  by_cases h0 : chunk.length = 0
  · have : chunk = [] := List.length_eq_zero_iff.mp h0
    subst this
    simp
  · rw [if_neg h0, SM.bind_of_ok (readExact_ok chunk r { c with rx := rxOf chunk ++ r } rfl rfl)]
    simp only
    split
    · rename_i h
      rw [decide_eq_false (by rw [h]; simpa using h0)]; rfl
    · rename_i h
      rw [decide_eq_true (.inr h)]; rfl

theorem readPacketLoop_frames (fuel : Nat) (dst p : Bytes) (r : List Rx) (c : Conn)
    (hdst : dst.length % MAX_PAYLOAD_LEN = 0) (hfuel : Spec.frameCount p ≤ fuel)
    (hc : c.rx = rxOf (Spec.frames c.seqId p) ++ r) :
    readPacketLoop fuel dst c = (.ok (dst ++ p),
      { c with rx := r, seqId := c.seqId + UInt8.ofNat (Spec.frameCount p) }) := by
  induction fuel generalizing dst p c with
  | zero => simp [Spec.frameCount] at hfuel
  | succ fuel ih =>
    unfold readPacketLoop
    by_cases hl : p.length < MAX_PAYLOAD_LEN
    · rw [frames_short _ _ hl] at hc
      rw [SM.bind_of_ok (readChunk_data dst p c.seqId r c (by unfold MAX_PAYLOAD_LEN at hl; omega) hc)]
      have hlast : (decide (p.length = 0 ∨ (dst ++ p).length % MAX_PAYLOAD_LEN ≠ 0)) = true := by
        rw [decide_eq_true_iff, List.length_append, Nat.add_mod, hdst]
        unfold MAX_PAYLOAD_LEN at *
        omega
      rw [hlast]
      simp only [SM.get_bind_apply, ne_eq, not_true_eq_false, if_false, SM.modify_bind_apply, if_true,
        SM.pure_apply, frameCount_short _ hl]
      rfl
    · have hl' : MAX_PAYLOAD_LEN ≤ p.length := by omega
      rw [frames_long _ _ hl'] at hc
      have htl : (p.take MAX_PAYLOAD_LEN).length = MAX_PAYLOAD_LEN := by
        rw [List.length_take]; omega
      have hc' : c.rx = rxOf (leBytes 3 (p.take MAX_PAYLOAD_LEN).length ++ [c.seqId] ++
          p.take MAX_PAYLOAD_LEN) ++
          (rxOf (Spec.frames (c.seqId + 1) (p.drop MAX_PAYLOAD_LEN)) ++ r) := by
        rw [hc, htl]; simp
      rw [SM.bind_of_ok (readChunk_data dst _ c.seqId _ c (by rw [htl]; decide) hc')]
      have hmod : (dst ++ p.take MAX_PAYLOAD_LEN).length % MAX_PAYLOAD_LEN = 0 := by
        rw [List.length_append, htl]
        unfold MAX_PAYLOAD_LEN at *
        omega
      have hlast : (decide ((p.take MAX_PAYLOAD_LEN).length = 0 ∨
          (dst ++ p.take MAX_PAYLOAD_LEN).length % MAX_PAYLOAD_LEN ≠ 0)) = false := by
        rw [decide_eq_false_iff_not, hmod, htl]
        decide
      rw [hlast]
      simp only [SM.get_bind_apply, ne_eq, not_true_eq_false, if_false, SM.modify_bind_apply,
        Bool.false_eq_true]
      rw [ih _ (p.drop MAX_PAYLOAD_LEN) _ hmod
        (by rw [frameCount_long _ hl'] at hfuel; omega) rfl]
      rw [frameCount_long _ hl', List.append_assoc, List.take_append_drop]
      simp only [seq_add_one_add]

theorem length_frames (seq : UInt8) (p : Bytes) :
    (Spec.frames seq p).length = p.length + 4 * Spec.frameCount p := by
  induction hn : p.length using Nat.strongRecOn generalizing p seq with
  | _ n ih =>
  by_cases hl : p.length < MAX_PAYLOAD_LEN
  · rw [frames_short _ _ hl, frameCount_short _ hl]; simp; omega
  · have hl' : MAX_PAYLOAD_LEN ≤ p.length := by omega
    rw [frames_long _ _ hl', frameCount_long _ hl']
    have := ih (p.drop MAX_PAYLOAD_LEN).length
      (by rw [List.length_drop]; unfold MAX_PAYLOAD_LEN at *; omega) (seq + 1) _ rfl
    rw [List.length_append, this]
    simp only [List.length_append, length_leBytes, List.length_cons, List.length_nil,
      List.length_take, List.length_drop]
    omega

theorem readPacket_frames (p : Bytes) (r : List Rx) (c : Conn)
    (hc : c.rx = rxOf (Spec.frames c.seqId p) ++ r) :
    readPacket c = (.ok p,
      { c with rx := r, seqId := c.seqId + UInt8.ofNat (Spec.frameCount p) }) := by
  unfold readPacket
  rw [readPacketLoop_frames _ [] p r c (by simp) _ hc]
  · simp
  · rw [hc, List.length_append, length_rxOf, length_frames]; omega

theorem readChunk_eq_ok {dst dst' : Bytes} {c c' : Conn} {q : UInt8} {last : Bool}
    (h : readChunk dst c = (.ok (q, last, dst'), c')) :
    ∃ chunk, dst' = dst ++ chunk ∧ chunk.length < 2 ^ 24 ∧
      c.rx = rxOf (leBytes 3 chunk.length ++ [q] ++ chunk) ++ c'.rx ∧
      c' = { c with rx := c'.rx } ∧
      (last = true ↔ (chunk.length = 0 ∨ (dst ++ chunk).length % MAX_PAYLOAD_LEN ≠ 0)) := by
  unfold readChunk at h
  rw [SM.bind_eq_ok] at h
  obtain ⟨md, c1, h1, h2⟩ := h
  obtain ⟨hrx, hlen, hc1⟩ := readExact_eq_ok h1
  match md, hlen, h2 with
  | [l0, l1, l2, s], _, h2 =>
    simp only at h2
    have hlt := leNat_three l0 l1 l2
    have hle := leBytes_three_leNat l0 l1 l2
    split at h2
    · rename_i h0
      simp only [SM.pure_apply, Prod.mk.injEq, Out.ok.injEq] at h2
      obtain ⟨⟨rfl, rfl, rfl⟩, rfl⟩ := h2
      refine ⟨[], by simp, by simp, ?_, hc1, by simp⟩
      rw [hrx]
      rw [h0] at hle
      simp only [List.length_nil, hle]
      simp
    · rename_i h0
      rw [SM.bind_eq_ok] at h2
      obtain ⟨chunk, c2, h3, h4⟩ := h2
      obtain ⟨hrx2, hlen2, hc2⟩ := readExact_eq_ok h3
      have hrx' : c.rx = rxOf (leBytes 3 chunk.length ++ [s] ++ chunk) ++ c2.rx := by
        rw [hrx, hrx2, hlen2, hle]; simp
      have hc2' : c2 = { c with rx := c2.rx } := by rw [hc2, hc1]
      split at h4
      · rename_i hm
        simp only [SM.pure_apply, Prod.mk.injEq, Out.ok.injEq] at h4
        obtain ⟨⟨rfl, rfl, rfl⟩, rfl⟩ := h4
        refine ⟨chunk, rfl, by rw [hlen2]; exact hlt, hrx', hc2', ?_⟩
        exact ⟨fun h => by simp at h, fun h => absurd h (by rw [hlen2]; exact fun h => h.elim h0 (fun h => h hm))⟩
      · rename_i hm
        simp only [SM.pure_apply, Prod.mk.injEq, Out.ok.injEq] at h4
        obtain ⟨⟨rfl, rfl, rfl⟩, rfl⟩ := h4
        refine ⟨chunk, rfl, by rw [hlen2]; exact hlt, hrx', hc2', ?_⟩
        exact ⟨fun _ => .inr hm, fun _ => rfl⟩

theorem readPacketLoop_eq_ok {fuel : Nat} {dst q : Bytes} {c c' : Conn}
    (hdst : dst.length % MAX_PAYLOAD_LEN = 0)
    (h : readPacketLoop fuel dst c = (.ok q, c')) :
    ∃ p, q = dst ++ p ∧ c.rx = rxOf (Spec.frames c.seqId p) ++ c'.rx ∧
      c' = { c with rx := c'.rx, seqId := c.seqId + UInt8.ofNat (Spec.frameCount p) } := by
  induction fuel generalizing dst c with
  | zero => simp [readPacketLoop] at h
  | succ fuel ih =>
    unfold readPacketLoop at h
    rw [SM.bind_eq_ok] at h
    obtain ⟨⟨qs, last, dst'⟩, c1, h1, h2⟩ := h
    obtain ⟨chunk, rfl, hlen, hrx, hc1, hlast⟩ := readChunk_eq_ok h1
    simp only [SM.get_bind_apply] at h2
    have hseq : c1.seqId = c.seqId := by rw [hc1]
    split at h2
    · simp at h2
    · rename_i hq
      have hq' : qs = c.seqId := by rw [← hseq]; exact (Decidable.not_not.mp hq).symm
      subst hq'
      simp only [SM.modify_bind_apply] at h2
      cases last with
      | true =>
        simp only [if_true, SM.pure_apply, Prod.mk.injEq, Out.ok.injEq] at h2
        obtain ⟨rfl, rfl⟩ := h2
        have hshort : chunk.length < MAX_PAYLOAD_LEN := by
          have hl := hlast.mp rfl
          rw [List.length_append, Nat.add_mod, hdst] at hl
          unfold MAX_PAYLOAD_LEN at *
          omega
        refine ⟨chunk, rfl, ?_, ?_⟩
        · rw [frames_short _ _ hshort, hrx]
        · rw [frameCount_short _ hshort, hc1]; rfl
      | false =>
        simp only [Bool.false_eq_true, if_false] at h2
        have hl := (not_congr hlast).mp (by simp)
        have hfull : chunk.length = MAX_PAYLOAD_LEN := by
          rw [List.length_append, Nat.add_mod, hdst] at hl
          unfold MAX_PAYLOAD_LEN at *
          omega
        have hmod : (dst ++ chunk).length % MAX_PAYLOAD_LEN = 0 := by
          rw [List.length_append]; unfold MAX_PAYLOAD_LEN at *; omega
        obtain ⟨p, hp1, hp2, hp3⟩ := ih hmod h2
        have hpl : MAX_PAYLOAD_LEN ≤ (chunk ++ p).length := by rw [List.length_append]; omega
        have htake : (chunk ++ p).take MAX_PAYLOAD_LEN = chunk := by
          rw [← hfull]; simp
        have hdrop : (chunk ++ p).drop MAX_PAYLOAD_LEN = p := by
          rw [← hfull]; simp
        refine ⟨chunk ++ p, by rw [hp1, List.append_assoc], ?_, ?_⟩
        · rw [frames_long _ _ hpl, htake, hdrop, hrx, hfull]
          simp only at hp2
          rw [hp2, hseq]
          simp
        · rw [frameCount_long _ hpl, hdrop, ← seq_add_one_add]
          rw [hp3, hc1]

theorem readPacket_eq_ok {p : Bytes} {c c' : Conn} (h : readPacket c = (.ok p, c')) :
    c.rx = rxOf (Spec.frames c.seqId p) ++ c'.rx ∧
      c' = { c with rx := c'.rx, seqId := c.seqId + UInt8.ofNat (Spec.frameCount p) } := by
  unfold readPacket at h
  obtain ⟨q, h1, h2, h3⟩ := readPacketLoop_eq_ok (by simp) h
  rw [List.nil_append] at h1
  subst h1
  exact ⟨h2, h3⟩

theorem readChunk_not_panic (dst : Bytes) (c : Conn) : (readChunk dst c).1 ≠ .panic := by
  unfold readChunk
  apply SM.safe_bind (readExact_not_panic 4 c)
  intro md c1 h
  obtain ⟨-, hlen, -⟩ := readExact_eq_ok h
  match md, hlen with
  | [l0, l1, l2, s], _ =>
    simp only
    split
    · simp [SM.Safe]
    · apply SM.safe_bind (readExact_not_panic _ _)
      intro chunk c2 h2
      split <;> simp [SM.Safe]

theorem readPacketLoop_not_panic (fuel : Nat) (dst : Bytes) (c : Conn) (h : c.rx.length < fuel) :
    (readPacketLoop fuel dst c).1 ≠ .panic := by
  induction fuel generalizing dst c with
  | zero => omega
  | succ fuel ih =>
    unfold readPacketLoop
    apply SM.safe_bind (readChunk_not_panic dst c)
    rintro ⟨q, last, dst'⟩ c1 h1
    obtain ⟨chunk, -, -, hrx, -, -⟩ := readChunk_eq_ok h1
    have hlen : c1.rx.length + 4 ≤ c.rx.length := by
      rw [hrx]; simp; omega
    unfold SM.Safe
    simp only [SM.get_bind_apply]
    split
    · simp
    · simp only [SM.modify_bind_apply]
      split
      · simp
      · apply ih
        simp only
        omega

theorem readPacket_not_panic (c : Conn) : (readPacket c).1 ≠ .panic :=
  readPacketLoop_not_panic _ _ _ (by omega)

end Verif

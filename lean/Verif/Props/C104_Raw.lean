import Verif.Proofs.Raw
import Verif.Proofs.Reported

/-!
# C104 The blocks that the compiler does not check are sound
-/

namespace Verif

/-- **C104**: reading numbers and arrays through pointers never leaves the packet, whatever the packet is and whatever
lies behind it in memory: the access is defined, and the number is the one that the checked reading gives. -/
theorem C104_reads :
    (∀ n, Refines Same (RawM.eatNum n) (P.eatNat n)) ∧
    (∀ n, Refines Same (RawM.checkedEatNum n) (P.checkedEatNat n)) ∧
    (∀ n, Refines Same (RawM.deserializeNum n) (P.eatNat n)) ∧
    (∀ n, Refines Same (RawM.deserializeArray n) (P.eat n)) ∧
    (∀ n, Refines Same (RawM.parse n (RawM.deserializeNum n)) (P.checkedEatNat n)) ∧
    (∀ n, Refines Same (RawM.parse n (RawM.deserializeArray n)) (P.checkedEat n)) := by
  have h1 : ∀ n, Refines Same (RawM.eatNum n) (P.eatNat n) := fun n =>
    Refines.eatArray n fun b => Refines.pure fun _ => rfl
  have h2 : ∀ n, Refines Same (RawM.deserializeArray n) (P.eat n) := fun n mem v hv => by
    have := Refines.eatArray (S := Same) n (f := fun b => Pure.pure b) (g := fun b => Pure.pure b)
      (fun b => Refines.pure fun _ => rfl) mem v hv
    obtain ⟨x, v', e, k1, k2, k3, k4⟩ := this
    have e1 : (P.eat n >>= fun b => Pure.pure b) = P.eat n := by
      funext s
      rcases hs : P.eat n s with ⟨o, s'⟩
      cases o with
      | ok a => exact SM.bind_of_ok hs
      | err e => exact SM.bind_of_err hs
      | panic => exact SM.bind_of_panic hs
    rw [e1] at k3 k4
    simp only [RawM.bind_pure] at e
    exact ⟨x, v', e, k1, k2, k3, k4⟩
  have hp : ∀ {α : Type} (n : Nat) (r : RawM α) (p q : P α), Refines Same r p →
      (∀ s, q s = if n ≤ s.length then p s else (.err .eof, s)) → Refines Same (RawM.parse n r) q := by
    intro α n r p q h hq mem v hv
    rw [hq, View.bytes_length hv]
    unfold RawM.parse
    by_cases hn : n ≤ v.len
    · rw [if_pos hn, if_neg (show ¬ v.len < n by omega)]
      exact h mem v hv
    · rw [if_neg hn, if_pos (show v.len < n by omega)]
      exact ⟨_, _, rfl, Nat.le_refl _, rfl, rfl, rfl⟩
  refine ⟨h1, fun n => Refines.checkedEatArray n fun b => Refines.pure fun _ => rfl, h1, h2,
    fun n => hp n _ _ _ (h1 n) fun s => ?_, fun n => hp n _ _ _ (h2 n) fun s => rfl⟩
  unfold P.checkedEatNat P.eatNat
  rw [SM.bind_apply, SM.bind_apply]
  unfold P.checkedEat
  by_cases hn : n ≤ s.length
  · rw [if_pos hn, if_pos hn]
  · rw [if_neg hn, if_neg hn]

/-- **C104**: numbers of three, five, six and seven bytes are put together from exactly their bytes, without a pointer. -/
theorem C104_parts (size part : Nat) (h : part ≤ size) :
    Refines Same (RawM.eatPart size part) (P.eatNat part) ∧
    Refines Same (RawM.checkedEatPart size part) (P.checkedEatNat part) := by
  have key : ∀ (s : View) (mem b : Bytes), RawShows mem s b ∧ s.len = part → ∀ v : View, v.Within mem →
      ∃ x v', ((RawM.load s >>= fun b => if b.length ≤ size then
          Pure.pure (leNat (b ++ List.replicate (size - b.length) 0))
        else RawM.crash) : RawM Nat) mem v = (.defined x, v') ∧
      v.off ≤ v'.off ∧ v'.off + v'.len = v.off + v.len ∧
      ((Pure.pure (leNat b) : P Nat) (v.bytes mem)).2 = v'.bytes mem ∧
      OutRel (Same mem) x ((Pure.pure (leNat b) : P Nat) (v.bytes mem)).1 := by
    intro s mem b hs v hv
    have hb : b.length = part := by rw [← hs.1.2, View.bytes_length hs.1.1, hs.2]
    refine ⟨.ok (leNat b), v, ?_, Nat.le_refl _, rfl, rfl, rfl⟩
    rw [RawM.bind_of (RawM.load_shows hs.1 v)]
    rw [if_pos (show b.length ≤ size by omega), leNat_zeros]
    rfl
  exact ⟨(Refines.eat part).bind fun mem s b hs v hv => key s mem b hs v hv,
    (Refines.checkedEat part).bind fun mem s b hs v hv => key s mem b hs v hv⟩

/-- the slices handed out lie in the packet. -/
theorem C104_slices (n : Nat) (mem : Bytes) (v s v' : View)
    (h : RawM.eat n mem v = (.defined (.ok s), v') ∨ RawM.checkedEat n mem v = (.defined (.ok s), v') ∨
      RawM.eatAll mem v = (.defined (.ok s), v')) :
    v.off ≤ s.off ∧ s.off + s.len ≤ v'.off ∧ v'.off + v'.len = v.off + v.len := by
  have heat : RawM.eat n mem v = (.defined (.ok s), v') →
      v.off ≤ s.off ∧ s.off + s.len ≤ v'.off ∧ v'.off + v'.len = v.off + v.len := by
    intro h
    unfold RawM.eat at h
    split at h
    · rename_i hn
      cases h
      refine ⟨Nat.le_refl _, Nat.le_refl _, ?_⟩
      show v.off + n + (v.len - n) = v.off + v.len
      omega
    · cases h
  rcases h with h | h | h
  · exact heat h
  · unfold RawM.checkedEat at h
    split at h
    · exact heat h
    · cases h
  · cases h
    exact ⟨Nat.le_refl _, Nat.le_refl _, rfl⟩

theorem Refines.checkedU8 :
    Refines (fun _ a b => a < 256 ∧ b = UInt8.ofNat a) (RawM.checkedEatNum 1) P.checkedEatU8 := by
  have h : P.checkedEatU8 = (P.checkedEat 1 >>= fun b => Pure.pure (UInt8.ofNat (leNat b))) := by
    funext s
    unfold P.checkedEatU8 P.checkedEatNat
    rw [SM.bind_apply, SM.bind_apply, SM.bind_apply]
    rcases P.checkedEat 1 s with ⟨o, s'⟩
    cases o <;> rfl
  rw [h]
  refine (Refines.checkedEat 1).bind fun mem s b hs v hv => ?_
  rw [RawM.bind_of (RawM.array_shows hs.1 hs.2 v)]
  refine Refines.pure (R := fun _ a b => a < 256 ∧ b = UInt8.ofNat a) (fun _ => ⟨?_, rfl⟩) mem v hv
  have := leNat_lt b
  rw [← hs.1.2, View.bytes_length hs.1.1, hs.2] at this
  rw [← hs.1.2]
  exact this

/-- **C104**: an error packet is read from memory as from a list of bytes. -/
theorem C104_error (code : UInt16) (protocol41 : Bool) :
    Refines Same (RawM.deserializeError code protocol41) (ErrPacket.deserializeError code protocol41) := by
  have tail : ∀ state, Refines Same
      (RawM.eatAll >>= fun all => RawM.load all >>= fun rest => match fromUtf8 rest with
        | some msg => Pure.pure (ErrPacket.error code state msg)
        | none => RawM.fail (.parse .fromUtf8))
      (P.eatAll >>= fun rest => match fromUtf8 rest with
        | some msg => Pure.pure (ErrPacket.error code state msg)
        | none => SM.fail (.parse .fromUtf8)) := by
    intro state
    refine Refines.eatAll.bind fun mem s b h v hv => ?_
    rw [RawM.bind_of (RawM.load_shows h v)]
    cases fromUtf8 b with
    | some msg => exact Refines.pure (R := Same) (fun _ => rfl) mem v hv
    | none => exact Refines.fail (R := Same) _ mem v hv
  unfold RawM.deserializeError ErrPacket.deserializeError
  cases protocol41 with
  | false => exact tail none
  | true =>
    refine Refines.checkedU8.bind fun mem a b hab v hv => ?_
    obtain ⟨ha, rfl⟩ := hab
    have hiff : (UInt8.ofNat a ≠ 0x23) ↔ a ≠ 0x23 := by
      refine not_congr ?_
      rw [← UInt8.toNat_inj, UInt8.toNat_ofNat', Nat.mod_eq_of_lt ha]
      rfl
    by_cases hc : a ≠ 0x23
    · rw [if_pos hc, if_pos (hiff.2 hc)]
      exact ⟨.err (.invalidPacket (v.bytes mem)), v, rfl, Nat.le_refl _, rfl, rfl, rfl⟩
    · rw [if_neg hc, if_neg (fun h => hc (hiff.1 h))]
      refine Refines.checkedEatArray (S := Same) 5 (fun b => ?_) mem v hv
      cases fromUtf8 b with
      | some _ => exact tail (some b)
      | none => exact fun mem v hv => ⟨.err (.parse .utf8), v, rfl, Nat.le_refl _, rfl, rfl, rfl⟩

/-- a pointer to five bytes made from a slice of four would not be defined, although there is a byte behind them. -/
example : (RawM.array 5 ⟨1, 4⟩ [1, 2, 3, 4, 5, 6] ⟨5, 1⟩).1 = .undefined ∧
    (RawM.eatNum 4 [1, 2, 3, 4, 5, 6] ⟨1, 4⟩) = (.defined (.ok 0x05040302), ⟨5, 0⟩) ∧
    (RawM.eatNum 4 [1, 2, 3, 4, 5, 6] ⟨1, 3⟩).1 = .defined .panic ∧
    (RawM.deserializeError 1064 true [9, 0x23, 52, 50, 48, 48, 48, 0x78, 9] ⟨1, 7⟩).1 =
      .defined (.ok (.error 1064 (some [52, 50, 48, 48, 48]) ['x'])) := by
  decide +kernel

/-! ### the SQL state as text -/

/-- **C104**: `state_str` of every error that a call reports is defined: whatever the server sent, whatever was called
before, the state has been found to be text, and it has five bytes. -/
theorem C104_state (x : Call) (c c' : Conn) (p : ErrPacket) (h : x.run c = (.err (.server p), c')) :
    ∀ code state msg, p = .error code state msg →
      rawStateStr state = .defined (.ok (stateStr state)) ∧ ∀ b ∈ state, b.length = 5 := by
  intro code state msg e
  subst e
  obtain ⟨caps, bs, hb⟩ := call_reported x c c' _ h
  exact state_text hb

/-- **C104**: the same of an error with which connecting fails. -/
theorem C104_state_connect (cr : Crypto) (alnum : Char → Bool) (fp : FloatParse) (c c' : Conn) (p : ErrPacket)
    (h : connect cr alnum fp c = (.err (.server p), c')) :
    ∀ code state msg, p = .error code state msg →
      rawStateStr state = .defined (.ok (stateStr state)) ∧ ∀ b ∈ state, b.length = 5 := by
  intro code state msg e
  subst e
  obtain ⟨caps, bs, hb⟩ := connect_reported cr alnum fp c c' _ h
  exact state_text hb

/-- **C104**: and of an error with which inserting or updating a model fails. -/
theorem C104_state_models (m : ActiveModel) (id : Value) (primary : Str) (c c' : Conn) (p : ErrPacket)
    (h : m.insert c = (.err (.server p), c') ∨
      m.update id primary c = (.err (.server p), c')) :
    ∀ code state msg, p = .error code state msg →
      rawStateStr state = .defined (.ok (stateStr state)) ∧ ∀ b ∈ state, b.length = 5 := by
  intro code state msg e
  subst e
  have hd : Decoded (.error code state msg) := by
    rcases h with h | h
    · exact (Reports.insert m c).2 _ _ h
    · exact (Reports.update id primary m c).2 _ _ h
  obtain ⟨caps, bs, hb⟩ := hd
  exact state_text hb

/-- an error made up outside of the parser could have a state for which `state_str` is not defined. -/
example : rawStateStr (some [0xFF, 0xFF, 0xFF, 0xFF, 0xFF]) = .undefined := by decide +kernel

/-! ### vectors in a pool -/

/-- **C104**: putting a vector back is defined, and leaves it empty with a capacity within the limit. -/
theorem C104_reset {α : Type} (sizeCap : Nat) (v : OwnVec α) :
    ∃ w d, v.reset sizeCap = some (w, d) ∧ w.items = [] ∧ w.cap ≤ sizeCap ∧ w.cap ≤ v.cap := by
  refine ⟨_, _, rfl, rfl, ?_, ?_⟩
  · show max 0 (min v.cap sizeCap) ≤ sizeCap; omega
  · show max 0 (min v.cap sizeCap) ≤ v.cap; omega

/-- **C104 is violated** where values own something: what was in the vector is not dropped. (The crate itself keeps bytes
in its pool, the type is public.) -/
theorem C104_leak_violated {α : Type} (sizeCap : Nat) (v w : OwnVec α) (d : List α)
    (h : v.reset sizeCap = some (w, d)) : d = [] ∧ ∀ a ∈ v.items, a ∉ d ∧ a ∉ w.items := by
  cases h
  exact ⟨rfl, fun a _ => ⟨List.not_mem_nil, List.not_mem_nil⟩⟩

end Verif

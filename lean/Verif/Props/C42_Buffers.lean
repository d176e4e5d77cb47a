import Verif.Model.Buffer

/-! # C42 — the buffer pool, C43 — timeouts -/

namespace Verif

structure BufInv (ctx : VecCtx) (slots : Nat) (s : BufPool) : Prop where
  clean : ∀ b ∈ s.queue, b.data = [] ∧ b.cap ≤ ctx.sizeCap
  few : s.queue.length ≤ slots
  once : ((s.used ++ s.queue).map Buf.name).Nodup
  old : ∀ b ∈ s.used ++ s.queue, b.name < s.born

theorem map_set_same {α β : Type} (f : α → β) (l : List α) (i : Nat) (a b : α) (h : l[i]? = some a)
    (hf : f b = f a) : (l.set i b).map f = l.map f := by
  induction l generalizing i with
  | nil => rfl
  | cons c l ih =>
    cases i with
    | zero => simp at h; subst h; simp [hf]
    | succ i => simp at h; simp [ih i h]

theorem eraseIdx_perm {α : Type} (l : List α) (i : Nat) (a : α) (h : l[i]? = some a) :
    l.Perm (a :: l.eraseIdx i) := by
  induction l generalizing i with
  | nil => simp at h
  | cons c l ih =>
    cases i with
    | zero => simp at h; subst h; exact List.Perm.refl _
    | succ i =>
      simp at h
      exact ((ih i h).cons c).trans (List.Perm.swap a c _)

theorem BufInv.step {ctx : VecCtx} {slots : Nat} {s : BufPool} (hi : BufInv ctx slots s) (e : BufEv) :
    BufInv ctx slots (s.step ctx slots e) := by
  obtain ⟨h1, h2, h3, h4⟩ := hi
  obtain ⟨queue, used, born⟩ := s
  simp only at h1 h2 h3 h4
  cases e with
  | get =>
    unfold BufPool.step BufPool.get
    cases queue with
    | nil =>
      refine ⟨h1, h2, ?_, ?_⟩
      · simp only [List.append_nil, List.map_append, List.map_cons, List.map_nil, Buf.new] at h3 ⊢
        rw [List.nodup_append]
        refine ⟨h3, by simp, ?_⟩
        intro a ha b hb hab
        rw [List.mem_singleton] at hb
        rw [List.mem_map] at ha
        obtain ⟨x, hx, rfl⟩ := ha
        have := h4 x (by simp [hx])
        omega
      · intro b hb
        simp only [List.append_nil, List.mem_append, List.mem_singleton] at hb h4
        rcases hb with hb | hb
        · exact Nat.lt_succ_of_lt (h4 b hb)
        · subst hb
          exact Nat.lt_succ_self born
    | cons b rest =>
      refine ⟨fun x hx => h1 x (by simp [hx]), by simp at h2 ⊢; omega, ?_, ?_⟩
      · simpa using h3
      · intro x hx
        exact h4 x (by simpa using hx)
  | write i data cap =>
    unfold BufPool.step BufPool.write
    match hu : used[i]? with
    | none => simp only [hu]; exact ⟨h1, h2, h3, h4⟩
    | some b =>
      simp only [hu]
      refine ⟨h1, h2, ?_, ?_⟩
      · simp only [List.map_append] at h3 ⊢
        rw [map_set_same Buf.name used i b { b with data := data, cap := max b.cap (max data.length cap) } hu rfl]
        exact h3
      · intro x hx
        rcases List.mem_append.1 hx with hx | hx
        · rcases List.mem_or_eq_of_mem_set hx with hx | hx
          · exact h4 x (by simp [hx])
          · subst hx
            exact h4 b (by simp [List.mem_of_getElem? hu])
        · exact h4 x (by simp [hx])
  | put i =>
    unfold BufPool.step BufPool.put
    match hu : used[i]? with
    | none => simp only [hu]; exact ⟨h1, h2, h3, h4⟩
    | some b =>
      simp only [hu]
      have hp := eraseIdx_perm used i b hu
      have h5 : ((b :: used.eraseIdx i ++ queue).map Buf.name).Nodup :=
        ((hp.append_right queue).map Buf.name).nodup_iff.1 h3
      split
      · rename_i hl
        refine ⟨?_, ?_, ?_, ?_⟩
        · intro x hx
          rcases List.mem_append.1 hx with hx | hx
          · exact h1 x hx
          · rw [List.mem_singleton] at hx
            subst hx
            exact ⟨rfl, Nat.min_le_right _ _⟩
        · simp; omega
        · have h6 : ((used.eraseIdx i ++ (queue ++ [b.reset ctx])).map Buf.name).Perm
              ((b :: used.eraseIdx i ++ queue).map Buf.name) := by
            rw [← List.append_assoc, List.map_append, List.cons_append, List.map_cons]
            exact List.perm_append_singleton _ _
          exact h6.nodup_iff.2 h5
        · intro x hx
          rcases List.mem_append.1 hx with hx | hx
          · exact h4 x (by simp [List.mem_of_mem_eraseIdx hx])
          · rcases List.mem_append.1 hx with hx | hx
            · exact h4 x (by simp [hx])
            · rw [List.mem_singleton] at hx
              subst hx
              exact h4 b (by simp [List.mem_of_getElem? hu])
      · refine ⟨h1, h2, ?_, ?_⟩
        · rw [List.cons_append, List.map_cons, List.nodup_cons] at h5
          exact h5.2
        · intro x hx
          rcases List.mem_append.1 hx with hx | hx
          · exact h4 x (by simp [List.mem_of_mem_eraseIdx hx])
          · exact h4 x (by simp [hx])

theorem BufInv.run {ctx : VecCtx} {slots : Nat} {s : BufPool} (hi : BufInv ctx slots s)
    (es : List BufEv) : BufInv ctx slots (s.run ctx slots es) := by
  unfold BufPool.run
  induction es generalizing s with
  | nil => exact hi
  | cons e es ih => exact ih (hi.step e)

theorem BufInv.new (ctx : VecCtx) (slots : Nat) : BufInv ctx slots BufPool.new :=
  ⟨by simp [BufPool.new], by simp [BufPool.new], by simp [BufPool.new], by simp [BufPool.new]⟩

/-- **C42.** After any history of taking, writing and dropping buffers: a buffer taken next is empty
and not the buffer of anybody else; at most `slots` idle buffers are kept, all empty and none larger
than the limit; no buffer is with two users or both idle and in use. -/
theorem C42_buffers (ctx : VecCtx) (slots : Nat) (es : List BufEv) :
    let s := BufPool.new.run ctx slots es
    (s.get ctx).1.data = [] ∧ (s.get ctx).1.name ∉ s.used.map Buf.name ∧
    s.queue.length ≤ slots ∧ (∀ b ∈ s.queue, b.data = [] ∧ b.cap ≤ ctx.sizeCap) ∧
    ((s.used ++ s.queue).map Buf.name).Nodup := by
  intro s
  obtain ⟨h1, h2, h3, h4⟩ := (BufInv.new ctx slots).run es
  refine ⟨?_, ?_, h2, h1, h3⟩
  · unfold BufPool.get
    split
    · rename_i b rest hq
      exact (h1 b (by rw [hq]; simp)).1
    · rfl
  · unfold BufPool.get
    split
    · rename_i b rest hq
      rw [hq, List.map_append, List.nodup_append] at h3
      intro hm
      exact h3.2.2 _ hm b.name (by simp) rfl
    · intro hm
      obtain ⟨b, hb, hn⟩ := List.mem_map.1 hm
      have := h4 b (by simp [s] at hb ⊢; exact .inl hb)
      simp only [Buf.new] at hn
      rw [hn] at this
      exact Nat.lt_irrefl _ this

/-- **C42** for `BUFFER_POOL`: 64 buffers of at most 4 MiB. -/
theorem C42_buffer_pool (es : List BufEv) :
    let s := BufPool.new.run bufferCtx bufferSlots es
    s.queue.length ≤ 64 ∧ ∀ b ∈ s.queue, b.data = [] ∧ b.cap ≤ 4194304 := by
  obtain ⟨-, -, h1, h2, -⟩ := C42_buffers bufferCtx bufferSlots es
  exact ⟨h1, h2⟩

-- a buffer that grew beyond the limit and held a secret comes back empty and small
example :
    let s := BufPool.new.run { sizeCap := 8, initSize := 2 } 1
      [.get, .get, .write 0 [115, 101, 99, 114, 101, 116] 100, .put 0, .put 0]
    s.queue = [{ name := 0, data := [], cap := 8 }] ∧ s.used = [] ∧
    (s.get { sizeCap := 8, initSize := 2 }).1 = { name := 0, data := [], cap := 8 } := by
  decide +kernel

/-! ### C43 -/

/-- the first position at which one of the two is ready when both are polled at every moment. -/
inductive Spec.First {ω σ τ α : Type} (f : Fut ω σ α) (d : Fut ω τ Unit) :
    σ → τ → List ω → Nat → Except Unit α → Prop where
  /-- the operation is ready (whether the deadline has passed or not) -/
  | ready {s s' : σ} {t : τ} {w : ω} {ws : List ω} {x : α} :
      f.poll s w = (some x, s') → First f d s t (w :: ws) 0 (.ok x)
  /-- the operation is pending and the deadline has passed -/
  | late {s s' : σ} {t t' : τ} {w : ω} {ws : List ω} :
      f.poll s w = (none, s') → d.poll t w = (some (), t') → First f d s t (w :: ws) 0 (.error ())
  /-- both are pending -/
  | next {s s' : σ} {t t' : τ} {w : ω} {ws : List ω} {n : Nat} {r : Except Unit α} :
      f.poll s w = (none, s') → d.poll t w = (none, t') → First f d s' t' ws n r →
      First f d s t (w :: ws) (n + 1) r

/-- **C43.** The wrapped operation finishes with result `r` at poll number `n` exactly if `n` is the
first poll at which the operation is ready (then `r` is its result) or the deadline has passed (then
`r` is the timeout). -/
theorem C43_timeout {ω σ τ α : Type} (f : Fut ω σ α) (d : Fut ω τ Unit) (s : σ) (t : τ) (ws : List ω)
    (n : Nat) (r : Except Unit α) :
    (f.timeout d).await (s, t) ws = (n, some r) ↔ Spec.First f d s t ws n r := by
  induction ws generalizing s t n with
  | nil =>
    constructor
    · intro h; cases h
    · intro h; cases h
  | cons w ws ih =>
    unfold Fut.await
    match hf : f.poll s w with
    | (some x, s') =>
      simp only [Fut.timeout, hf]
      constructor
      · intro h
        cases h
        exact .ready hf
      · intro h
        cases h with
        | ready h => rw [hf] at h; cases h; rfl
        | late h _ => rw [hf] at h; cases h
        | next h _ _ => rw [hf] at h; cases h
    | (none, s') =>
      match hd : d.poll t w with
      | (some u, t') =>
        simp only [Fut.timeout, hf, hd]
        constructor
        · intro h
          cases h
          exact .late hf hd
        · intro h
          cases h with
          | ready h => rw [hf] at h; cases h
          | late _ _ => rfl
          | next _ h _ => rw [hd] at h; cases h
      | (none, t') =>
        simp only [Fut.timeout, hf, hd]
        constructor
        · intro h
          match ha : (f.timeout d).await (s', t') ws with
          | (m, res) =>
            simp only [Fut.timeout] at ha
            rw [ha] at h
            cases h
            exact .next hf hd ((ih s' t' m).1 ha)
        · intro h
          cases h with
          | ready h => rw [hf] at h; cases h
          | late _ h => rw [hd] at h; cases h
          | next h1 h2 h3 =>
            rw [hf] at h1; rw [hd] at h2
            cases h1; cases h2
            have := (ih s' t' _).2 h3
            simp only [Fut.timeout] at this
            rw [this]

/-- **C43.** No result is lost: if it has not finished after some polls, the operation itself and
the timer were pending at every one of them. -/
theorem C43_pending {ω σ τ α : Type} (f : Fut ω σ α) (d : Fut ω τ Unit) (s : σ) (t : τ) (ws : List ω)
    (h : ((f.timeout d).await (s, t) ws).2 = none) :
    f.await s ws = (ws.length, none) ∧ d.await t ws = (ws.length, none) ∧
      (f.timeout d).await (s, t) ws = (ws.length, none) := by
  induction ws generalizing s t with
  | nil => exact ⟨rfl, rfl, rfl⟩
  | cons w ws ih =>
    unfold Fut.await at h ⊢
    match hf : f.poll s w, hd : d.poll t w with
    | (some x, s'), _ => simp [Fut.timeout, hf] at h
    | (none, s'), (some u, t') => simp [Fut.timeout, hf, hd] at h
    | (none, s'), (none, t') =>
      simp only [Fut.timeout, hf, hd] at h
      obtain ⟨h1, h2, h3⟩ := ih s' t' h
      simp only [Fut.timeout] at h3
      simp only [Fut.timeout, hf, hd]
      rw [h1, h2, h3]
      exact ⟨rfl, rfl, rfl⟩

-- both become ready at the third poll: the result wins; ready later: timeout
example :
    let op (n : Nat) : Fut Nat Unit Nat := { poll := fun s w => (if n ≤ w then some 42 else none, s) }
    let timer : Fut Nat Unit Unit := { poll := fun s w => (if 5 ≤ w then some () else none, s) }
    (match ((op 5).timeout timer).await ((), ()) [1, 3, 7, 8] with
      | (2, some (.ok 42)) => true | _ => false) = true ∧
    (match ((op 8).timeout timer).await ((), ()) [1, 3, 7, 8] with
      | (2, some (.error ())) => true | _ => false) = true := by
  decide +kernel

end Verif

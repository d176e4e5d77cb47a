import Verif.Props.C100_MigExample
import Verif.Props.C38_Pool

/-!
# C100 — how many connections a migrator needs at a time

`C100_fifo` says that what the program is handed out is an execution of the pool, if it never holds more than
the pool has places.  Here: how many it holds.
-/

namespace Verif

open Spec (heldNow History)

/-- what `x` gets from the pool it gives back, and meanwhile it holds at most `n` more than before. -/
def PoolUses {α : Type} (n : Nat) (x : SM PoolMig Error α) : Prop :=
  ∀ s, (x s).2.pick = s.pick ∧ ∃ d, (x s).2.hist = s.hist ++ d ∧
    (History s.pick s.hist → History s.pick (s.hist ++ d)) ∧ heldNow (s.hist ++ d) = heldNow s.hist ∧
    ∀ p, p <+: d → (heldNow (s.hist ++ p)).length ≤ (heldNow s.hist).length + n

theorem born_of_run {N : Nat} {es : List PoolEv} {x : Pool} (h : Pool.new.run N es = some x) : x.born ≤ N := by
  obtain ⟨h1, h2⟩ := C38_limit N es x h
  have hsub : List.range x.born ⊆ Spec.inUse x ++ x.queue := by
    intro k hk
    rw [List.mem_append]
    exact (C39_kept N es x h).2 k (List.mem_range.1 hk)
  have := (List.Nodup.subperm List.nodup_range hsub).length_le
  rw [List.length_range, List.length_append] at this
  omega

/-- the beginnings of a list made of two. -/
theorem prefix_two {α : Type} {p a b : List α} (h : p <+: a ++ b) : p <+: a ∨ ∃ t, p = a ++ t ∧ t <+: b := by
  induction a generalizing p with
  | nil => exact .inr ⟨p, rfl, h⟩
  | cons x a ih =>
    match p, h with
    | [], _ => exact .inl (List.nil_prefix)
    | y :: p, h =>
      obtain ⟨rfl, h'⟩ := List.cons_prefix_cons.1 h
      rcases ih h' with h1 | ⟨t, rfl, h1⟩
      · exact .inl (List.cons_prefix_cons.2 ⟨rfl, h1⟩)
      · exact .inr ⟨t, rfl, h1⟩

theorem prefix_one {α : Type} {p : List α} {a : α} (h : p <+: [a]) : p = [] ∨ p = [a] := by
  match p, h with
  | [], _ => exact .inl rfl
  | x :: p, h =>
    obtain ⟨rfl, h'⟩ := List.cons_prefix_cons.1 h
    rw [List.prefix_nil.1 h']
    exact .inr rfl

namespace PoolUses

variable {α β : Type} {n m : Nat}

theorem quiet {x : SM PoolMig Error α} (h : ∀ s, (x s).2.pick = s.pick ∧ (x s).2.hist = s.hist) : PoolUses n x := by
  intro s
  refine ⟨(h s).1, [], by rw [(h s).2, List.append_nil], by simp, by simp, fun p hp => ?_⟩
  rw [List.prefix_nil.1 hp, List.append_nil]
  omega

theorem pure (a : α) : PoolUses n (Pure.pure a : SM PoolMig Error α) := quiet fun _ => ⟨rfl, rfl⟩

theorem modify {f : PoolMig → PoolMig} (h : ∀ s, (f s).pick = s.pick ∧ (f s).hist = s.hist) :
    PoolUses n (SM.modify f : SM PoolMig Error Unit) := quiet h

theorem calls (x : SM Conns Error α) : PoolUses n (Verif.calls x) := quiet fun _ => ⟨rfl, rfl⟩

theorem mono {x : SM PoolMig Error α} (h : PoolUses n x) (hl : n ≤ m) : PoolUses m x := by
  intro s
  obtain ⟨h0, d, h1, h2, h3, h4⟩ := h s
  exact ⟨h0, d, h1, h2, h3, fun p hp => (h4 p hp).trans (by omega)⟩

/-- one thing after the other. -/
theorem seq {s s1 s2 : PoolMig} {d1 d2 : List PoolUse} (e1 : s1.hist = s.hist ++ d1) (p1 : s1.pick = s.pick)
    (a1 : History s.pick s.hist → History s.pick (s.hist ++ d1)) (b1 : heldNow (s.hist ++ d1) = heldNow s.hist)
    (c1 : ∀ p, p <+: d1 → (heldNow (s.hist ++ p)).length ≤ (heldNow s.hist).length + n)
    (e2 : s2.hist = s1.hist ++ d2)
    (a2 : History s1.pick s1.hist → History s1.pick (s1.hist ++ d2)) (b2 : heldNow (s1.hist ++ d2) = heldNow s1.hist)
    (c2 : ∀ p, p <+: d2 → (heldNow (s1.hist ++ p)).length ≤ (heldNow s1.hist).length + n) :
    ∃ d, s2.hist = s.hist ++ d ∧ (History s.pick s.hist → History s.pick (s.hist ++ d)) ∧
      heldNow (s.hist ++ d) = heldNow s.hist ∧
      ∀ p, p <+: d → (heldNow (s.hist ++ p)).length ≤ (heldNow s.hist).length + n := by
  rw [e1] at e2 a2 b2 c2
  rw [p1] at a2
  refine ⟨d1 ++ d2, by rw [e2, List.append_assoc], fun h => ?_, ?_, fun p hp => ?_⟩
  · rw [← List.append_assoc]
    exact a2 (a1 h)
  · rw [← List.append_assoc, b2, b1]
  · rcases prefix_two hp with h | ⟨t, rfl, ht⟩
    · exact c1 p h
    · rw [← List.append_assoc]
      exact (c2 t ht).trans (by rw [b1])

theorem bind {x : SM PoolMig Error α} {f : α → SM PoolMig Error β} (hx : PoolUses n x) (hf : ∀ a, PoolUses n (f a)) :
    PoolUses n (x >>= f) := by
  intro s
  obtain ⟨h0, d, h1, h2, h3, h4⟩ := hx s
  match e : x s with
  | (.ok a, s1) =>
    rw [e] at h0 h1
    rw [SM.bind_of_ok e]
    obtain ⟨g0, d', g1, g2, g3, g4⟩ := hf a s1
    exact ⟨g0.trans h0, seq h1 h0 h2 h3 h4 g1 g2 g3 g4⟩
  | (.err e', s1) =>
    rw [e] at h0 h1
    rw [SM.bind_of_err e]
    exact ⟨h0, d, h1, h2, h3, h4⟩
  | (.panic, s1) =>
    rw [e] at h0 h1
    rw [SM.bind_of_panic e]
    exact ⟨h0, d, h1, h2, h3, h4⟩

/-- a connection for the time of `f`. -/
theorem withConn {f : Nat → SM PoolMig Error α} (hf : ∀ i, PoolUses n (f i)) : PoolUses (n + 1) (Verif.withConn f) := by
  intro s
  obtain ⟨h0, d, h1, h2, h3, h4⟩ := hf (s.pick s.hist) { s with hist := s.hist ++ [.got (s.pick s.hist)] }
  dsimp only at h0 h1 h2 h3 h4
  unfold Verif.withConn
  refine ⟨h0, .got (s.pick s.hist) :: d ++ [.back (s.pick s.hist)], ?_, fun h => ?_, ?_, fun p hp => ?_⟩
  · dsimp only
    rw [h1]
    simp
  · have := History.back (h2 (.got h)) (i := s.pick s.hist) (by rw [h3, heldNow_got]; exact List.mem_cons_self)
    simpa using this
  · have : s.hist ++ (.got (s.pick s.hist) :: d ++ [.back (s.pick s.hist)]) =
        (s.hist ++ [.got (s.pick s.hist)] ++ d) ++ [.back (s.pick s.hist)] := by simp
    rw [this, heldNow_back, h3, heldNow_got, List.erase_cons_head]
  · have hfull : heldNow (s.hist ++ (.got (s.pick s.hist) :: d ++ [.back (s.pick s.hist)])) = heldNow s.hist := by
      have : s.hist ++ (.got (s.pick s.hist) :: d ++ [.back (s.pick s.hist)]) =
          (s.hist ++ [.got (s.pick s.hist)] ++ d) ++ [.back (s.pick s.hist)] := by simp
      rw [this, heldNow_back, h3, heldNow_got, List.erase_cons_head]
    rcases prefix_two hp with h | ⟨t, rfl, ht⟩
    · match p, h with
      | [], _ => rw [List.append_nil]; omega
      | a :: p, h =>
        obtain ⟨rfl, h'⟩ := List.cons_prefix_cons.1 h
        have := h4 p h'
        rw [heldNow_got, List.length_cons] at this
        have e : s.hist ++ PoolUse.got (s.pick s.hist) :: p = s.hist ++ [PoolUse.got (s.pick s.hist)] ++ p := by simp
        rw [e]
        omega
    · rcases prefix_one ht with rfl | rfl
      · have := h4 d (List.prefix_refl _)
        rw [heldNow_got, List.length_cons] at this
        have e : s.hist ++ (.got (s.pick s.hist) :: d ++ []) = s.hist ++ [PoolUse.got (s.pick s.hist)] ++ d := by simp
        rw [e]
        omega
      · rw [hfull]
        omega

theorem unwrap {x : SM PoolMig Error α} (h : PoolUses n x) : PoolUses n x.unwrap := by
  intro s
  have := h s
  unfold SM.unwrap
  split
  next e => rw [e] at this; exact this
  next => exact this

theorem getExecute (sql : Str) : PoolUses 1 (Verif.getExecute sql) := withConn fun _ => calls _

theorem get {f : PoolMig → SM PoolMig Error α} (h : ∀ s, PoolUses n (f s)) : PoolUses n (SM.get >>= f) :=
  bind (quiet fun _ => ⟨rfl, rfl⟩) h

section

variable {up down : MigKey → SM PoolMig Error Unit} (hn : 1 ≤ n) (hu : ∀ k, PoolUses n (up k)) (hd : ∀ k, PoolUses n (down k))
include hn hu hd

theorem effect (e : MigEff) : PoolUses n ((pooled up down).effect e) := by
  cases e with
  | up k => exact hu k
  | down k => exact hd k
  | conn => exact pure _
  | insert k => exact (getExecute _).mono hn
  | delete k => exact (getExecute _).mono hn

theorem upOne (k : MigKey) : PoolUses n ((pooled up down).upOne k) := by
  unfold MigEnv.upOne
  refine get fun s => ?_
  split
  · exact pure _
  · exact bind (effect hn hu hd _) fun _ => bind (modify fun _ => ⟨rfl, rfl⟩) fun _ =>
      bind (effect hn hu hd _) fun _ => effect hn hu hd _

theorem upNames (v : Version) (ns : List Str) : PoolUses n ((pooled up down).upNames v ns) := by
  induction ns with
  | nil => exact pure _
  | cons a ns ih => exact bind (upOne hn hu hd _) fun _ => ih

theorem upToVersion (t : Option Version) (ms : List MigList) : PoolUses n ((pooled up down).upToVersion t ms) := by
  induction ms with
  | nil => exact pure _
  | cons a ms ih =>
    refine bind ?_ fun _ => ih
    unfold MigEnv.upVersion
    split
    · split
      · exact pure _
      · exact upNames hn hu hd _ _
    · exact upNames hn hu hd _ _

theorem downAt (k : MigKey) (i : Nat) : PoolUses n ((pooled up down).downAt k i) :=
  bind (effect hn hu hd _) fun _ => bind (modify fun _ => ⟨rfl, rfl⟩) fun _ =>
    bind (effect hn hu hd _) fun _ => effect hn hu hd _

theorem downNames (v : Version) (ns : List Str) : PoolUses n ((pooled up down).downNames v ns) := by
  induction ns with
  | nil => exact pure _
  | cons a ns ih =>
    refine bind ?_ fun _ => ih
    unfold MigEnv.downOne
    refine get fun s => ?_
    split
    · exact downAt hn hu hd _ _
    · exact pure _

theorem downToVersion (t : Version) (ms : List MigList) : PoolUses n ((pooled up down).downToVersion t ms) := by
  unfold MigEnv.downToVersion
  generalize ms.reverse = l
  induction l with
  | nil => exact pure _
  | cons a l ih =>
    refine bind ?_ fun _ => ih
    unfold MigEnv.downVersion
    split
    · exact downNames hn hu hd _ _
    · exact pure _

theorem oneDown (ms : List MigList) : PoolUses n ((pooled up down).oneDown ms) := by
  unfold MigEnv.oneDown
  generalize (ms.reverse.flatMap fun m => m.names.reverse.map fun n => (m.version, n)) = l
  induction l with
  | nil => exact pure _
  | cons k l ih =>
    unfold MigEnv.oneDownKeys
    refine get fun s => ?_
    split
    · exact bind (downAt hn hu hd _ _) fun _ => pure _
    · exact ih

theorem migrateMain (debug : Bool) (fp : FloatParse) (ms : List MigList) (t : Version) :
    PoolUses n (Verif.migrateMain debug fp ms up down t) := by
  refine bind (unwrap ?_) fun _ => bind (unwrap ?_) fun _ => unwrap (upToVersion hn hu hd _ _)
  · exact bind ((withConn fun _ => calls _).mono hn (n := 0 + 1)) fun _ => modify fun _ => ⟨rfl, rfl⟩
  · exact bind (upToVersion hn hu hd _ _) fun _ => downToVersion hn hu hd _ _

end

end PoolUses

/-- **C100.** A migrator whose migrations need at most `n` connections at a time (`n ≥ 1`) never holds more than `n`,
and whatever happens, in the end it holds none. -/
theorem C100_limit {n : Nat} (hn : 1 ≤ n) {up down : MigKey → SM PoolMig Error Unit} (hu : ∀ k, PoolUses n (up k))
    (hd : ∀ k, PoolUses n (down k)) (debug : Bool) (fp : FloatParse) (ms : List MigList) (t : Version) (s : PoolMig)
    (hs : s.hist = []) :
    let us := (migrateMain debug fp ms up down t s).2.hist
    History s.pick us ∧ heldNow us = [] ∧ ∀ p, p <+: us → (heldNow p).length ≤ n := by
  intro us
  obtain ⟨-, d, h1, h2, h3, h4⟩ := PoolUses.migrateMain hn hu hd debug fp ms t s
  rw [hs, List.nil_append] at h1 h2 h3
  have e : us = d := h1
  refine ⟨e ▸ h2 .start, e ▸ h3, fun p hp => ?_⟩
  have := h4 p (e ▸ hp)
  rw [hs, List.nil_append] at this
  simpa [heldNow] using this

theorem uses_exampleUp (fp : FloatParse) (k : MigKey) : PoolUses 3 (exampleUp fp k) := by
  unfold exampleUp
  split
  · exact (PoolUses.getExecute _).mono (by decide)
  · split
    · exact (PoolUses.getExecute _).mono (by decide)
    · exact PoolUses.withConn fun _ => PoolUses.bind (PoolUses.calls _) fun _ => PoolUses.withConn fun _ => PoolUses.withConn fun _ => PoolUses.calls _

theorem uses_exampleDown (k : MigKey) : PoolUses 3 (exampleDown k) := by
  unfold exampleDown
  split
  · exact (PoolUses.getExecute _).mono (by decide)
  · split
    · exact (PoolUses.getExecute _).mono (by decide)
    · exact (PoolUses.withConn fun _ => PoolUses.calls _).mono (n := 0 + 1) (by decide)

/-- The program of `examples/migrations`, to any version and on any connections, however it ends, with the pool of the code and any limit
of at least three — there it is ten —: at every moment what it was handed out and gave back is an execution of the pool
with this limit, so no request has to wait for a connection to come back; at most three connections are opened, and all
of them are idle in the end. -/
theorem C100_places (N : Nat) (hN : 3 ≤ N) (debug : Bool) (fp : FloatParse) (t : Version) (s : PoolMig)
    (hs : s.hist = []) (hp : s.pick = fifoPick) :
    let us := (migrateMain debug fp exampleLists (exampleUp fp) exampleDown t s).2.hist
    (∀ p, p <+: us → ∃ es x, Pool.new.run N es = some x ∧ x.queue = (fifo p).1 ∧ x.born = (fifo p).2 ∧
      (Spec.inUse x).Perm (heldNow p)) ∧
    (fifo us).2 ≤ 3 ∧ (fifo us).1.Perm (List.range (fifo us).2) := by
  intro us
  obtain ⟨h1, h2, h3⟩ := C100_limit (n := 3) (by decide) (uses_exampleUp fp) uses_exampleDown debug fp exampleLists
    t s hs
  rw [hp] at h1
  have hpre : ∀ {p l : List PoolUse}, History fifoPick l → p <+: l → History fifoPick p := by
    intro p l h hl
    induction h with
    | start => rw [List.prefix_nil.1 hl]; exact .start
    | @got l h ih =>
      rcases prefix_two hl with hl | ⟨t, rfl, ht⟩
      · exact ih hl
      · rcases prefix_one ht with rfl | rfl
        · rw [List.append_nil]; exact h
        · exact .got h
    | @back l i h hi ih =>
      rcases prefix_two hl with hl | ⟨t, rfl, ht⟩
      · exact ih hl
      · rcases prefix_one ht with rfl | rfl
        · rw [List.append_nil]; exact h
        · exact .back h hi
  refine ⟨fun p hpu => ?_, ?_, ?_⟩
  · exact C100_fifo N p (hpre h1 hpu) fun q hq => (h3 q (hq.trans hpu)).trans hN
  · obtain ⟨es, x, k1, -, k3, -⟩ := C100_fifo 3 us h1 h3
    rw [← k3]
    exact born_of_run k1
  · have := fifo_inv h1
    rw [h2, List.append_nil] at this
    exact this

/-- With fewer places than a program holds at a time there is no execution of the pool that hands out what it asks for. -/
theorem C100_too_few (N : Nat) (p : List PoolUse) (h : N < (heldNow p).length) :
    ¬∃ es x, Pool.new.run N es = some x ∧ (Spec.inUse x).Perm (heldNow p) := by
  rintro ⟨es, x, h1, h2⟩
  have := (C38_limit N es x h1).1
  rw [h2.length_eq] at this
  omega

namespace C100ex

-- the example going from 0.1.0 up holds three at a time, and opens three
example : ((prog (start cmdsA fifoPick)).2.hist.inits.map fun p => (heldNow p).length) =
    [0, 1, 0, 1, 2, 3, 2, 1, 0, 1, 0] := by decide +kernel
example : (exampleMain true C99.noFloats (start cmdsA fifoPick)).2.hist.length = 6 := by decide +kernel

end C100ex

end Verif

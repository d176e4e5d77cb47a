import Verif.Proofs.MigPool
import Verif.Props.C99_Fill

/-!
# C100 — the migrator on a pool

Migrations are arbitrary programs that use connections of a pool; a program *realises* a step if it does to
the database what the step says, whichever connections it gets (`Realises`).
-/

namespace Verif

open Spec (PoolServer MigServer MigStore SqlError Applied heldNow written Exclusive History Step)

section
variable {W D : Type} {S : PoolServer W D} {pick : List PoolUse → Nat}

/-! ### starting -/

attribute [local irreducible] existsSql createSql selectSql in
theorem reads_open (b : Bool) : ∀ m ∈ (openStatements b).map cmdOf, Spec.aboutMig m = true := by
  intro m hm
  obtain ⟨sql, hs, rfl⟩ := List.mem_map.1 hm
  unfold openStatements at hs
  have : sql = existsSql ∨ sql = createSql ∨ sql = selectSql := by
    cases b <;> simp at hs <;> tauto
  rcases this with rfl | rfl | rfl
  · exact about_of reads_exists
  · exact about_of reads_create
  · exact about_of reads_select

/-- Starting a migrator on a pool: the table is created if there is none, nothing else changes; the migrator
takes for applied exactly what is recorded. -/
theorem C100_new (hS : FairMig S.mig) (debug : Bool) (fp : FloatParse) (ms : List MigList) (hm : Proper ms)
    (hist : List PoolUse) (hi : Idle pick hist) (st : MigStore W) (a : Version → List Str)
    (hk : ∀ k ∈ st.table.getD [], k.2.length ≤ 255) (hd : ∀ k ∈ st.table.getD [], k ∈ Spec.declared ms) :
    ∃ hist' a', Idle pick hist' ∧
      Chat S pick hist st a (pooledOpen debug fp ms) (.ok ()) ⟨some (st.table.getD []), st.world⟩ a' hist' ∧
      (∀ k, Applied a' k ↔ k ∈ st.table.getD []) ∧ ((st.table.getD []).Nodup → Tidy a') := by
  obtain ⟨t, w⟩ := st
  obtain ⟨sent, h1, h2, -⟩ := open_talk S.mig hS debug fp ms hm ⟨t, S.view w⟩ hk
  obtain ⟨a', g1, g2, g3⟩ := h2 hd
  exact ⟨_, a', hi.once, Chat.bind (Chat.getOn (reads_open _) h1 g3) (Chat.done fun cs => rfl), g1, g2⟩

/-! ### up and down -/

/-- Migrating up: every migration the migrator does not take for applied takes effect, in the order they are
declared, and is recorded, up to the first thing that is refused, which is the error returned.  It does not
matter which connections the pool hands out. -/
theorem C100_up (hS : FairMig S.mig) {up down : MigKey → SM PoolMig Error Unit} {f : MigKey → Step D}
    (hx : Exclusive pick) (ms : List MigList) (hm : Proper ms) (hp : ∀ k ∈ Spec.declared ms, Plain k)
    (hu : ∀ k ∈ Spec.declared ms, Realises S (up k) (f k)) (t : Option Version) (hist : List PoolUse)
    (hi : Idle pick hist) (rows : List MigKey) (w : W) (a : Version → List Str) :
    let y := S.mig.applySteps f (S.view w) rows (Spec.pendingUp t ms a)
    ∃ w' hist' a', Idle pick hist' ∧ S.view w' = y.1 ∧
      Chat S pick hist ⟨some rows, w⟩ a ((pooled up down).upToVersion t ms) (migOutcome S.mig y.2.2)
        ⟨some y.2.1, w'⟩ a' hist' ∧
      (∀ j, Applied a' j ↔ Applied a j ∨ j ∈ S.mig.stepsTaken f (S.view w) rows (Spec.pendingUp t ms a)) ∧
      (Tidy a → Tidy a') := by
  intro y
  have hsub : ∀ k ∈ (Spec.declared ms).filter (Spec.upTo t), k ∈ Spec.declared ms := fun k hk => (List.mem_filter.1 hk).1
  have htodo : ((Spec.declared ms).filter (Spec.upTo t)).filter (fun k => !decide (Applied a k)) = Spec.pendingUp t ms a := by
    unfold Spec.pendingUp
    rw [List.filter_filter]
    exact List.filter_congr fun k _ => Bool.and_comm ..
  obtain ⟨w', hist', a', k1, k2, k3, k4, k5⟩ := chat_up hS (down := down) hx _ (hm.nodup.filter (Spec.upTo t))
    (fun k hk => hp k (hsub k hk)) (fun k hk => hu k (hsub k hk)) hist hi rows w a
  rw [htodo] at k2 k3 k4
  refine ⟨w', hist', a', k1, k2, ?_, k4, k5⟩
  rw [MigEnv.upToVersion_eq]
  exact k3

/-- Migrating down: every migration above the version that the migrator takes for applied is reverted, the
last one first, and its record removed, up to the first that is refused. -/
theorem C100_down (hS : FairMig S.mig) {up down : MigKey → SM PoolMig Error Unit} {f : MigKey → Step D}
    (hx : Exclusive pick) (ms : List MigList) (hm : Proper ms) (hp : ∀ k ∈ Spec.declared ms, Plain k)
    (hu : ∀ k ∈ Spec.declared ms, Realises S (down k) (f k)) (t : Version) (hist : List PoolUse)
    (hi : Idle pick hist) (rows : List MigKey) (w : W) (a : Version → List Str) (ht : Tidy a) :
    let y := S.mig.revertSteps f (S.view w) rows (Spec.pendingDown t ms a)
    ∃ w' hist' a', Idle pick hist' ∧ S.view w' = y.1 ∧
      Chat S pick hist ⟨some rows, w⟩ a ((pooled up down).downToVersion t ms) (migOutcome S.mig y.2.2)
        ⟨some y.2.1, w'⟩ a' hist' ∧
      (∀ j, Applied a' j ↔ Applied a j ∧ j ∉ Spec.MigServer.stepsUndone f (S.view w) (Spec.pendingDown t ms a)) ∧
      Tidy a' := by
  intro y
  have hsub : ∀ k ∈ (Spec.declared ms).reverse.filter (above t), k ∈ Spec.declared ms :=
    fun k hk => List.mem_reverse.1 (List.mem_filter.1 hk).1
  have htodo : ((Spec.declared ms).reverse.filter (above t)).filter (fun k => decide (Applied a k)) =
      Spec.pendingDown t ms a := by
    unfold Spec.pendingDown
    rw [List.filter_filter, ← List.filter_reverse]
    exact List.filter_congr fun k _ => Bool.and_comm ..
  obtain ⟨w', hist', a', k1, k2, k3, k4, k5⟩ := chat_down hS (up := up) hx _ (hm.nodup_reverse.filter (above t))
    (fun k hk => hp k (hsub k hk)) (fun k hk => hu k (hsub k hk)) hist hi rows w a ht
  rw [htodo] at k2 k3 k4
  refine ⟨w', hist', a', k1, k2, ?_, k4, k5⟩
  rw [MigEnv.downToVersion_eq]
  exact k3

/-! ### a program -/

theorem taken_all (M : MigServer D) (f : MigKey → Step D) (ks : List MigKey) (d : D) (rows : List MigKey)
    (h : (M.applySteps f d rows ks).2.2 = none) : M.stepsTaken f d rows ks = ks := by
  induction ks generalizing d rows with
  | nil => rfl
  | cons k ks ih =>
    rw [Spec.MigServer.applySteps] at h
    rw [Spec.MigServer.stepsTaken]
    cases hf : f k d with
    | mk d' e =>
      rw [hf] at h
      cases e with
      | some e => cases h
      | none =>
        dsimp only at h ⊢
        cases hi : M.inserted d' rows k.1.major.toNat k.1.minor.toNat k.1.patch.toNat k.2 with
        | error e => rw [hi] at h; cases h
        | ok rows' => rw [hi] at h; dsimp only at h ⊢; rw [ih d' rows' h]

theorem undone_all (M : MigServer D) (f : MigKey → Step D) (ks : List MigKey) (d : D) (rows : List MigKey)
    (h : (M.revertSteps f d rows ks).2.2 = none) : Spec.MigServer.stepsUndone f d ks = ks := by
  induction ks generalizing d rows with
  | nil => rfl
  | cons k ks ih =>
    rw [Spec.MigServer.revertSteps] at h
    rw [Spec.MigServer.stepsUndone]
    cases hf : f k d with
    | mk d' e =>
      rw [hf] at h
      cases e with
      | some e => cases h
      | none => dsimp only at h ⊢; rw [ih d' _ h]

/-- what `migrateMain` amounts to, with these rows: up to the version, down to it, and everything above it
again. -/
def mainSteps (M : MigServer D) (f g : MigKey → Step D) (ms : List MigList) (t : Version) (d : D) (rows : List MigKey) :
    D × List MigKey × Option SqlError :=
  Spec.MigServer.andThen (M.applySteps f d rows (missing (some t) ms rows)) fun d1 rows1 =>
    Spec.MigServer.andThen (M.revertSteps g d1 rows1 (present t ms rows)) fun d2 rows2 =>
      M.applySteps f d2 rows2 ((Spec.declared ms).filter fun k => decide (Spec.rank t < Spec.rank k.1))

theorem unwrapped (M : MigServer D) (e : Option SqlError) :
    unwrapOut (migOutcome M e) = if e = none then (.ok () : Out Error Unit) else .panic := by
  cases e <;> rfl

theorem Chat.crash {α β : Type} {h h1 : List PoolUse} {st st1 : MigStore W} {a a1 : Version → List Str}
    {x : SM PoolMig Error α} {f : α → SM PoolMig Error β}
    (hx : Chat S pick h st a x .panic st1 a1 h1) :
    Chat S pick h st a (x >>= f) .panic st1 a1 h1 := by
  obtain ⟨c1, s1, t1, k1⟩ := hx
  refine ⟨c1, s1, t1, fun cs r hc => ?_⟩
  obtain ⟨cs1, e1, l1, -⟩ := k1 cs r hc
  exact ⟨cs1, SM.bind_of_panic e1, l1, fun ⟨v, hv⟩ => (nomatch hv)⟩

/-- A program that starts a migrator, goes to a version and then all the way up (examples/migrations/main.rs):
what becomes of the database and of the records is a function of what they were, not of the connections.  It
panics if, and only if, something is refused. -/
theorem C100_program (hS : FairMig S.mig) {up down : MigKey → SM PoolMig Error Unit} {f g : MigKey → Step D}
    (hx : Exclusive pick) (debug : Bool) (fp : FloatParse) (ms : List MigList) (hm : Proper ms)
    (hp : ∀ k ∈ Spec.declared ms, Plain k) (hu : ∀ k ∈ Spec.declared ms, Realises S (up k) (f k))
    (hw : ∀ k ∈ Spec.declared ms, Realises S (down k) (g k)) (t : Version) (hist : List PoolUse)
    (hi : Idle pick hist) (st : MigStore W) (a : Version → List Str)
    (hk : ∀ k ∈ st.table.getD [], k.2.length ≤ 255) (hd : ∀ k ∈ st.table.getD [], k ∈ Spec.declared ms)
    (hn : (st.table.getD []).Nodup) :
    let y := mainSteps S.mig f g ms t (S.view st.world) (st.table.getD [])
    ∃ w' hist' a', Idle pick hist' ∧ S.view w' = y.1 ∧
      Chat S pick hist st a (migrateMain debug fp ms up down t) (if y.2.2 = none then .ok () else .panic)
        ⟨some y.2.1, w'⟩ a' hist' := by
  intro y
  have hy : y = mainSteps S.mig f g ms t (S.view st.world) (st.table.getD []) := rfl
  clear_value y
  obtain ⟨h0, a0, i0, c0, ap0, td0⟩ := C100_new (S := S) hS debug fp ms hm hist hi st a hk hd
  generalize st.table.getD [] = rows at *
  unfold mainSteps at hy
  -- up to the version
  have e1 : Spec.pendingUp (some t) ms a0 = missing (some t) ms rows := by
    unfold Spec.pendingUp missing
    simp only [ap0]
  obtain ⟨w1, h1, a1, i1, v1, c1, ap1, td1⟩ := C100_up hS (down := down) hx ms hm hp hu (some t) h0 i0 rows st.world a0
  rw [e1] at v1 c1 ap1
  have c0' := c0.unwrap
  generalize hr1 : S.mig.applySteps f (S.view st.world) rows (missing (some t) ms rows) = r1 at *
  obtain ⟨d1, rows1, x1⟩ := r1
  dsimp only at v1 c1
  cases x1 with
  | some e =>
    subst hy
    refine ⟨w1, h1, a1, i1, v1, ?_⟩
    refine Chat.bind c0' (Chat.crash (f := fun _ => ((pooled up down).up ms).unwrap) ?_)
    exact (Chat.stop (f := fun _ => (pooled up down).downToVersion t ms) c1).unwrap
  | none =>
    have tk1 := taken_all S.mig f _ _ _ (congrArg (fun z => z.2.2) hr1)
    rw [tk1] at ap1
    rw [Spec.MigServer.andThen] at hy
    -- down to the version
    have e2 : Spec.pendingDown t ms a1 = present t ms rows := by
      unfold Spec.pendingDown present
      congr 1
      refine List.filter_congr fun k hk => ?_
      by_cases hlt : Spec.rank t < Spec.rank k.1
      · have : k ∉ missing (some t) ms rows := by
          unfold missing
          rw [List.mem_filter]
          simp [Spec.upTo]
          omega
        simp [ap1, ap0, this]
      · simp [hlt]
    obtain ⟨w2, h2, a2, i2, v2, c2, ap2, td2⟩ := C100_down hS (up := up) hx ms hm hp hw t h1 i1 rows1 w1 a1 (td1 (td0 hn))
    rw [e2, v1] at v2 c2 ap2
    have c12 : Chat S pick h0 ⟨some rows, st.world⟩ a0 ((pooled up down).toVersion t ms) _ _ a2 h2 := Chat.bind c1 c2
    have c12' := c12.unwrap
    generalize hr2 : S.mig.revertSteps g d1 rows1 (present t ms rows) = r2 at *
    obtain ⟨d2, rows2, x2⟩ := r2
    dsimp only at v2 c12'
    cases x2 with
    | some e =>
      subst hy
      exact ⟨w2, h2, a2, i2, v2, Chat.bind c0' (Chat.crash c12')⟩
    | none =>
      have tk2 := undone_all S.mig g _ _ _ (congrArg (fun z => z.2.2) hr2)
      rw [tk2] at ap2
      rw [Spec.MigServer.andThen] at hy
      have e3 : Spec.pendingUp none ms a2 = (Spec.declared ms).filter fun k => decide (Spec.rank t < Spec.rank k.1) := by
        unfold Spec.pendingUp
        refine List.filter_congr fun k hk => ?_
        simp only [ap2, ap1, ap0, Spec.upTo, Bool.true_and]
        unfold missing present
        simp only [List.mem_filter, List.mem_reverse, hk, true_and]
        by_cases hlt : Spec.rank t < Spec.rank k.1
        · by_cases hr : k ∈ rows <;> simp [hlt, hr, Spec.upTo]
        · by_cases hr : k ∈ rows <;> simp [hlt, hr, Spec.upTo]; omega
      obtain ⟨w3, h3, a3, i3, v3, c3, -, -⟩ := C100_up hS (down := down) hx ms hm hp hu none h2 i2 rows2 w2 a2
      rw [e3, v2, ← hy] at v3 c3
      have c3' := c3.unwrap
      rw [unwrapped] at c3'
      exact ⟨w3, h3, a3, i3, v3, Chat.bind c0' (Chat.bind c12' c3')⟩

end

end Verif

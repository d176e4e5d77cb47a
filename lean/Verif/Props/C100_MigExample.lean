import Verif.Props.C100_MigPool

/-! # C100 — the migrations of the example, and the pool of the code -/

namespace Verif

open Spec (PoolServer MigServer MigStore SqlError Applied heldNow written Exclusive History Step FillDb FillState FillServer)

section
variable {X : Type} {mig : MigServer (FillDb × X)} {F : X → FillServer}
  {ddl : FillDb × X → Str → Except SqlError (FillDb × X)}

/-- the errors the statements can give. -/
def FairDdl (ddl : FillDb × X → Str → Except SqlError (FillDb × X)) : Prop :=
  ∀ d sql e, ddl d sql = .error e → (utf8 e.state).length = 5 ∧ e.code ≠ 0xFFFF

/-- A `simple_migration!`: its statement, on a connection of the pool. -/
theorem C100_simple {W D : Type} {S : PoolServer W D} (hS : FairMig S.mig) {sql : Str} (hf : Foreign sql) {f : Step D}
    (h : AnswersTo S sql f) : Realises S (getExecute sql) f := realises_execute hS hf h

theorem answers_ddl (hd : FairDdl ddl) {sql : Str} {ts : List Spec.Tok} (h : Spec.tokens sql = some ts)
    (h1 : ts ≠ Spec.FillServer.alterToks) (h2 : ts ≠ Spec.FillServer.dropToks) (h3 : ts ≠ Spec.FillServer.usersToks) :
    AnswersTo (Spec.fillPool mig F ddl) sql (Spec.ddlStep ddl sql) := by
  rintro i ⟨st, x⟩
  have hr := react_text (F x) i st sql ts h
  rw [if_neg h1, if_neg h2, if_neg h3] at hr
  have ho : (Spec.fillPool mig F ddl).other i (st, x) (0x03 :: utf8 sql) =
      match ddl (st.db, x) sql with
      | .ok (db, x) => some (({ st with db := db }, x), [mig.okAnswer 0])
      | .error e => some ((st, x), [mig.errAnswer e]) := by
    unfold Spec.fillPool
    dsimp only
    rw [hr]
    show (fromUtf8 (utf8 sql)).bind _ = _
    rw [fromUtf8_utf8]
    rfl
  rw [ho]
  show ∃ w', _ = (Spec.ddlStep ddl sql (st.db, x)).1 ∧ match (Spec.ddlStep ddl sql (st.db, x)).2 with
    | none => _
    | some e => _
  unfold Spec.ddlStep
  cases he : ddl (st.db, x) sql with
  | ok d => exact ⟨({ st with db := d.1 }, d.2), rfl, 0, rfl⟩
  | error e => exact ⟨(st, x), rfl, rfl, hd _ _ _ he⟩

/-! ### the migration with three connections -/

theorem not_about {S : FillServer} {i : Nat} {st st' : FillState} {m : Bytes} {ps : List Bytes}
    (h : S.react i st m = some (st', ps)) : Spec.aboutMig m = false := by
  unfold Spec.aboutMig
  split
  · rename_i bs
    rw [Spec.FillServer.react, if_pos rfl] at h
    cases hu : fromUtf8 bs with
    | none => rfl
    | some text =>
      rw [hu] at h
      simp only [Option.bind_eq_bind, Option.bind_some] at h ⊢
      cases ht : Spec.tokens text with
      | none => rfl
      | some ts =>
        rw [ht] at h
        simp only [Option.bind_some] at h ⊢
        split at h
        · rename_i e; rw [e]; decide +kernel
        · split at h
          · rename_i e; rw [e]; decide +kernel
          · split at h
            · rename_i e; rw [e]; decide +kernel
            · cases h
  · rfl

theorem ftalk_pool (x : X) (t : Option (List MigKey)) (cmds : List (Nat × Bytes)) (st st' : FillState)
    (sent : Nat → Bytes) (h : (F x).talk st cmds = some (st', sent)) :
    (Spec.fillPool mig F ddl).talk ⟨t, (st, x)⟩ cmds = some (⟨t, (st', x)⟩, sent) := by
  induction cmds generalizing st sent with
  | nil => cases h; rfl
  | cons m cmds ih =>
    obtain ⟨i, m⟩ := m
    rw [Spec.FillServer.talk] at h
    cases hr : (F x).react i st m with
    | none => rw [hr] at h; cases h
    | some y =>
      obtain ⟨st1, ps⟩ := y
      rw [hr] at h
      simp only [Option.bind_eq_bind, Option.bind_some] at h
      cases ht : (F x).talk st1 cmds with
      | none => rw [ht] at h; cases h
      | some z =>
        obtain ⟨st2, sent2⟩ := z
        rw [ht] at h
        cases h
        have e : (Spec.fillPool mig F ddl).react i ⟨t, (st, x)⟩ m = some (⟨t, (st1, x)⟩, ps) := by
          rw [Spec.PoolServer.react, not_about hr]
          have : (Spec.fillPool mig F ddl).other i (st, x) m = some ((st1, x), ps) := by
            unfold Spec.fillPool
            dsimp only
            rw [hr]
          rw [if_neg (by simp), this]
          rfl
        rw [Spec.PoolServer.talk, e]
        simp only [Option.bind_eq_bind, Option.bind_some]
        rw [ih st1 sent2 ht]
        rfl

/-- what the pool has seen of `fillUp`, if the column is added and if it is not. -/
def fillHistory (pick : List PoolUse → Nat) (hist : List PoolUse) (added : Bool) : List PoolUse :=
  let h1 := hist ++ [.got (pick hist)]
  let h2 := h1 ++ [.got (pick h1)]
  let h3 := h2 ++ [.got (pick h2)]
  if added then h3 ++ [.back (pick h2)] ++ [.back (pick h1)] ++ [.back (pick hist)] else h1 ++ [.back (pick hist)]

theorem idle_fill {pick : List PoolUse → Nat} {hist : List PoolUse} (hi : Idle pick hist) (b : Bool) :
    Idle pick (fillHistory pick hist b) := by
  cases b with
  | false => exact hi.once
  | true =>
    unfold fillHistory
    dsimp only
    rw [if_pos rfl]
    refine ⟨.back (.back (.back (.got (.got (.got hi.history))) ?_) ?_) ?_, ?_⟩ <;>
      simp only [heldNow_got, heldNow_back, hi.held, List.erase_cons_head, List.mem_cons, true_or]

theorem withConn_run {α : Type} {f : Nat → SM PoolMig Error α} {cs cs' : Conns} {hist h' : List PoolUse}
    {pick : List PoolUse → Nat} {a a' : Version → List Str} {o : Out Error α}
    (h : f (pick hist) ⟨cs, hist ++ [.got (pick hist)], pick, a⟩ = (o, ⟨cs', h', pick, a'⟩)) :
    withConn f ⟨cs, hist, pick, a⟩ = (o, ⟨cs', h' ++ [.back (pick hist)], pick, a'⟩) := by
  unfold withConn
  dsimp only
  rw [h]

theorem calls_run {α : Type} {x : SM Conns Error α} {cs cs' : Conns} {hist : List PoolUse}
    {pick : List PoolUse → Nat} {a : Version → List Str} {o : Out Error α} (h : x cs = (o, cs')) :
    calls x ⟨cs, hist, pick, a⟩ = (o, ⟨cs', hist, pick, a⟩) := by
  unfold calls
  dsimp only
  rw [h]

/-- The migration that fills a column, on three connections of the pool. -/
theorem C100_fill (hF : ∀ x, FairFill (F x)) (hp : ∀ x, (F x).protocol41 = mig.protocol41) (fp : FloatParse) :
    Realises (Spec.fillPool mig F ddl) (fillUp fp) (Spec.fillStep F) := by
  intro pick hist st a hx hi
  obtain ⟨t, st, x⟩ := st
  have d0 := hx _ (.got hi.history)
  have d1 := hx _ (.got (.got hi.history))
  rw [heldNow_got, hi.held, List.mem_singleton] at d0
  rw [heldNow_got, heldNow_got, hi.held] at d1
  simp only [List.mem_cons, List.not_mem_nil, or_false, not_or] at d1
  obtain ⟨cmds, sent, st', h1, h2, h3, h4⟩ := C99_fill (hF x) fp st (pick hist)
    (pick (hist ++ [.got (pick hist)]))
    (pick (hist ++ [.got (pick hist)] ++ [.got (pick (hist ++ [.got (pick hist)]))]))
    (Ne.symm d0) (Ne.symm d1.2) (Ne.symm d1.1)
  refine ⟨(st', x), fillHistory pick hist ((F x).refusesColumn st.db).isNone, idle_fill hi _, ?_, cmds, sent,
    ftalk_pool x t cmds st st' sent h1, fun cs r hc => ?_⟩
  · show (st'.db, x) = _
    rw [h2]
    rfl
  · obtain ⟨cs', k1, k2, k3, k4, k5⟩ := h4 cs r fun i _ =>
      ⟨(hc i).pending, (hc i).faults, (hc i).track, (hc i).p41.trans (hp x).symm, (hc i).rx⟩
    have ho : migOutcome (Spec.fillPool mig F ddl).mig (Spec.fillStep F ((Spec.fillPool mig F ddl).view (st, x))).2 =
        fillOutcome (F x) ((F x).filled st.db).2 := by
      show migOutcome mig ((F x).filled st.db).2 = _
      cases ((F x).filled st.db).2 with
      | none => rfl
      | some e =>
        unfold migOutcome fillOutcome migRefusal fillRefusal
        dsimp only
        rw [hp x]
    rw [ho]
    refine ⟨cs', ?_, by rw [k2, written_append], fun ⟨v, hv⟩ i => ?_⟩
    · cases hcol : (F x).refusesColumn st.db with
      | some e =>
        rw [hcol] at k5
        have hal : ∃ s1, fillAlter (pick hist) cs = (.err (fillRefusal (F x) e), s1) :=
          ⟨(fillAlter (pick hist) cs).2, Prod.ext k5 rfl⟩
        obtain ⟨s1, hal⟩ := hal
        have k6 := (SM.bind_of_err (f := fun _ => fillRows _ _ _ fp) hal).symm.trans k1
        obtain ⟨k7, rfl⟩ := Prod.mk.inj k6
        rw [← k7]
        exact withConn_run (SM.bind_of_err (calls_run hal))
      | none =>
        rw [hcol] at k5
        have hal : ∃ s1, fillAlter (pick hist) cs = (.ok (), s1) :=
          ⟨(fillAlter (pick hist) cs).2, Prod.ext k5 rfl⟩
        obtain ⟨s1, hal⟩ := hal
        have k6 := (SM.bind_of_ok (f := fun _ => fillRows _ _ _ fp) hal).symm.trans k1
        exact withConn_run ((SM.bind_of_ok (calls_run hal)).trans (withConn_run (withConn_run (calls_run k6))))
    · have hn : ((F x).filled st.db).2 = none := by
        cases hh : ((F x).filled st.db).2 with
        | none => rfl
        | some e => rw [hh] at hv; cases hv
      by_cases hm : i ∈ [pick hist, pick (hist ++ [.got (pick hist)]),
        pick (hist ++ [.got (pick hist)] ++ [.got (pick (hist ++ [.got (pick hist)]))])]
      · have := k3 hn i hm
        exact ⟨this.pending, this.faults, this.track, this.p41.trans (hp x), this.rx⟩
      · rw [k4 i hm]
        have := hc i
        rw [h3 i hm] at this
        exact this

/-- Undoing it. -/
theorem C100_unfill (hF : ∀ x, FairFill (F x)) (hp : ∀ x, (F x).protocol41 = mig.protocol41) :
    Realises (Spec.fillPool mig F ddl) fillDownUp (Spec.unfillStep F) := by
  intro pick hist st a hx hi
  obtain ⟨t, st, x⟩ := st
  obtain ⟨sent, st', h1, h2, h3, h4⟩ := C99_down (hF x) st (pick hist)
  refine ⟨(st', x), _, hi.once, ?_, _, sent, ftalk_pool x t _ st st' sent h1, fun cs r hc => ?_⟩
  · show (st'.db, x) = (Spec.unfillStep F (st.db, x)).1
    rw [h3]
    unfold Spec.unfillStep
    dsimp only
    cases (F x).refusesDrop st.db <;> rfl
  · obtain ⟨cs', k1, k2, k3, k4⟩ := h4 cs (r (pick hist))
      ⟨(hc _).pending, (hc _).faults, (hc _).track, (hc _).p41.trans (hp x).symm, (hc _).rx⟩
    have ho : migOutcome (Spec.fillPool mig F ddl).mig (Spec.unfillStep F ((Spec.fillPool mig F ddl).view (st, x))).2 =
        fillOutcome (F x) ((F x).refusesDrop st.db) := by
      show migOutcome mig (Spec.unfillStep F (st.db, x)).2 = _
      unfold Spec.unfillStep
      dsimp only
      cases (F x).refusesDrop st.db with
      | none => rfl
      | some e =>
        unfold migOutcome fillOutcome migRefusal fillRefusal
        dsimp only
        rw [hp x]
    rw [ho]
    refine ⟨cs', ?_, by rw [k2, written_append], fun _ i => ?_⟩
    · exact withConn_run (calls_run k1)
    · by_cases hm : i = pick hist
      · subst hm
        exact ⟨k3.pending, k3.faults, k3.track, k3.p41.trans (hp x), k3.rx⟩
      · rw [k4 i hm]
        have := hc i
        rw [h2 i hm] at this
        exact this

/-! ### the program -/

/-- the migrations of the example, in the order they are declared. -/
def exampleKeys : List MigKey :=
  [(⟨0, 1, 0⟩, "CreateUser".toList), (⟨0, 1, 0⟩, "CreateAddress".toList), (⟨0, 1, 1⟩, "UserAddPrimaryAddress".toList)]

theorem declared_example : Spec.declared exampleLists = exampleKeys := by decide +kernel

theorem proper_example : Proper exampleLists := by
  refine ⟨?_, ?_⟩
  · unfold exampleLists
    simp only [List.pairwise_cons, List.mem_singleton, forall_eq, List.not_mem_nil, false_imp_iff, implies_true,
      List.Pairwise.nil, and_true]
    decide
  · decide +kernel

/-- none of the statements of the other migration. -/
def plainText (sql : Str) : Bool :=
  match Spec.tokens sql with
  | some ts => decide (ts ≠ Spec.FillServer.alterToks) && decide (ts ≠ Spec.FillServer.dropToks) &&
      decide (ts ≠ Spec.FillServer.usersToks)
  | none => false

theorem reads_plain {sql : Str} (h : plainText sql = true) : ∃ ts, Spec.tokens sql = some ts ∧
    ts ≠ Spec.FillServer.alterToks ∧ ts ≠ Spec.FillServer.dropToks ∧ ts ≠ Spec.FillServer.usersToks := by
  unfold plainText at h
  cases ht : Spec.tokens sql with
  | none => rw [ht] at h; cases h
  | some ts =>
    rw [ht] at h
    simp only [Bool.and_eq_true, decide_eq_true_eq] at h
    exact ⟨ts, rfl, h.1.1, h.1.2, h.2⟩

theorem reads_createUser : plainText createUserSql = true := by decide +kernel
theorem reads_dropUser : plainText dropUserSql = true := by decide +kernel
theorem reads_createAddress : plainText createAddressSql = true := by decide +kernel
theorem reads_dropAddress : plainText dropAddressSql = true := by decide +kernel

theorem foreign_example : Foreign createUserSql ∧ Foreign dropUserSql ∧ Foreign createAddressSql ∧ Foreign dropAddressSql := by
  unfold Foreign
  decide +kernel

section
attribute [local irreducible] createUserSql dropUserSql createAddressSql dropAddressSql

theorem realises_ddl (hS : FairMig mig) (hd : FairDdl ddl) {sql : Str} (hf : Foreign sql) (h : plainText sql = true) :
    Realises (Spec.fillPool mig F ddl) (getExecute sql) (Spec.ddlStep ddl sql) := by
  obtain ⟨ts, h0, h1, h2, h3⟩ := reads_plain h
  exact realises_execute hS hf (answers_ddl hd h0 h1 h2 h3)

/-- what the program of the example amounts to: what is recorded is undone, the last one first, and everything
is done again. -/
def exampleRun (mig : MigServer (FillDb × X)) (F : X → FillServer) (ddl : FillDb × X → Str → Except SqlError (FillDb × X))
    (d : FillDb × X) (rows : List MigKey) : (FillDb × X) × List MigKey × Option SqlError :=
  Spec.MigServer.andThen
    (mig.revertSteps (Spec.exampleDownStep F ddl) d rows (exampleKeys.reverse.filter fun k => decide (k ∈ rows)))
    fun d' rows' => mig.applySteps (Spec.exampleUpStep F ddl) d' rows' exampleKeys

theorem mainSteps_example (d : FillDb × X) (rows : List MigKey) :
    mainSteps mig (Spec.exampleUpStep F ddl) (Spec.exampleDownStep F ddl) exampleLists ⟨0, 0, 0⟩ d rows =
      exampleRun mig F ddl d rows := by
  have e1 : missing (some ⟨0, 0, 0⟩) exampleLists rows = [] := by
    unfold missing
    rw [declared_example, List.filter_eq_nil_iff]
    intro k hk
    have : Spec.upTo (some ⟨0, 0, 0⟩) k = false := by revert k; decide +kernel
    rw [this]
    simp
  have e2 : present ⟨0, 0, 0⟩ exampleLists rows = exampleKeys.reverse.filter fun k => decide (k ∈ rows) := by
    unfold present
    rw [declared_example, ← List.filter_reverse]
    refine List.filter_congr fun k hk => ?_
    have : Spec.rank ⟨0, 0, 0⟩ < Spec.rank k.1 := by
      rw [List.mem_reverse] at hk
      revert k
      decide +kernel
    simp [this]
  have e3 : ((Spec.declared exampleLists).filter fun k => decide (Spec.rank ⟨0, 0, 0⟩ < Spec.rank k.1)) = exampleKeys := by
    decide +kernel
  unfold mainSteps exampleRun
  rw [e1, e2, e3]
  rfl

/-- The example (examples/migrations): whatever the pool hands out, and whatever state the database is in (of
the records, only those of its migrations), it undoes what is recorded, and does everything again.  It panics
if, and only if, something is refused. -/
theorem C100_example (hS : FairMig mig) (hd : FairDdl ddl) (hF : ∀ x, FairFill (F x))
    (hp : ∀ x, (F x).protocol41 = mig.protocol41) (debug : Bool) (fp : FloatParse) (pick : List PoolUse → Nat)
    (hx : Exclusive pick) (st : MigStore (FillState × X)) (a : Version → List Str)
    (hk : ∀ k ∈ st.table.getD [], k ∈ exampleKeys) (hn : (st.table.getD []).Nodup) :
    let y := exampleRun mig F ddl (st.world.1.db, st.world.2) (st.table.getD [])
    ∃ w' hist' a', Idle pick hist' ∧ (w'.1.db, w'.2) = y.1 ∧
      Chat (Spec.fillPool mig F ddl) pick [] st a (exampleMain debug fp) (if y.2.2 = none then .ok () else .panic)
        ⟨some y.2.1, w'⟩ a' hist' := by
  intro y
  have hy : y = mainSteps mig (Spec.exampleUpStep F ddl) (Spec.exampleDownStep F ddl) exampleLists ⟨0, 0, 0⟩
      (st.world.1.db, st.world.2) (st.table.getD []) := (mainSteps_example _ _).symm
  clear_value y
  subst hy
  have keys : ∀ k ∈ exampleKeys, k.2 = "CreateUser".toList ∨ k.2 = "CreateAddress".toList ∨
      k.2 = "UserAddPrimaryAddress".toList := by decide +kernel
  have n1 : "CreateAddress".toList ≠ "CreateUser".toList := by decide +kernel
  have n2 : "UserAddPrimaryAddress".toList ≠ "CreateUser".toList := by decide +kernel
  have n3 : "UserAddPrimaryAddress".toList ≠ "CreateAddress".toList := by decide +kernel
  obtain ⟨f1, f2, f3, f4⟩ := foreign_example
  refine C100_program (S := Spec.fillPool mig F ddl) hS hx debug fp exampleLists proper_example ?_ ?_ ?_ ⟨0, 0, 0⟩ []
    ⟨.start, rfl⟩ st a ?_ ?_ hn
  · rw [declared_example]
    unfold Plain
    decide +kernel
  · rw [declared_example]
    intro k hk
    unfold exampleUp Spec.exampleUpStep
    rcases keys k hk with h | h | h
    · rw [if_pos h, if_pos h]
      exact realises_ddl hS hd f1 reads_createUser
    · rw [h, if_neg n1, if_neg n1, if_pos rfl, if_pos rfl]
      exact realises_ddl hS hd f3 reads_createAddress
    · rw [h, if_neg n2, if_neg n2, if_neg n3, if_neg n3]
      exact C100_fill hF hp fp
  · rw [declared_example]
    intro k hk
    unfold exampleDown Spec.exampleDownStep
    rcases keys k hk with h | h | h
    · rw [if_pos h, if_pos h]
      exact realises_ddl hS hd f2 reads_dropUser
    · rw [h, if_neg n1, if_neg n1, if_pos rfl, if_pos rfl]
      exact realises_ddl hS hd f4 reads_dropAddress
    · rw [h, if_neg n2, if_neg n2, if_neg n3, if_neg n3]
      exact C100_unfill hF hp
  · intro k hk'
    have := hk k hk'
    revert this
    revert k
    clear hk
    intro k _ hm
    rcases keys k hm with h | h | h <;> rw [h] <;> decide +kernel
  · rw [declared_example]
    exact hk
end

theorem revert_rows {D : Type} (M : MigServer D) (f : MigKey → Step D) (ks : List MigKey) (d : D) (rows : List MigKey)
    (h : (M.revertSteps f d rows ks).2.2 = none) :
    ∀ j ∈ (M.revertSteps f d rows ks).2.1, j ∈ rows ∧ ∀ k ∈ ks, ¬ (j.1 = k.1 ∧ M.same j.2 k.2 = true) := by
  induction ks generalizing d rows with
  | nil => intro j hj; exact ⟨hj, by simp⟩
  | cons k ks ih =>
    rw [Spec.MigServer.revertSteps] at h ⊢
    cases hf : f k d with
    | mk d' e =>
      rw [hf] at h
      cases e with
      | some e => cases h
      | none =>
        dsimp only at h ⊢
        intro j hj
        obtain ⟨h1, h2⟩ := ih d' _ h j hj
        rw [List.mem_filter] at h1
        refine ⟨h1.1, fun l hl => ?_⟩
        rcases List.mem_cons.1 hl with rfl | hl
        · rintro ⟨h3, h4⟩
          have := h1.2
          rw [h3, h4] at this
          simp at this
        · exact h2 l hl

theorem apply_rows {D : Type} (M : MigServer D) (f : MigKey → Step D) (ks : List MigKey) (hk : ∀ k ∈ ks, k.2.length ≤ 255)
    (d : D) (rows : List MigKey) (h : (M.applySteps f d rows ks).2.2 = none) :
    (M.applySteps f d rows ks).2.1 = rows ++ ks := by
  induction ks generalizing d rows with
  | nil => exact (List.append_nil _).symm
  | cons k ks ih =>
    rw [Spec.MigServer.applySteps] at h ⊢
    cases hf : f k d with
    | mk d' e =>
      rw [hf] at h
      cases e with
      | some e => cases h
      | none =>
        dsimp only at h ⊢
        cases hi : M.inserted d' rows k.1.major.toNat k.1.minor.toNat k.1.patch.toNat k.2 with
        | error e => rw [hi] at h; cases h
        | ok rows' =>
          rw [hi] at h
          dsimp only at h ⊢
          obtain ⟨n, h1, h2, -⟩ := inserted_ok M hi
          have hl := hk k (List.mem_cons_self ..)
          have hn : n = k.2 := by
            rcases h1 with h1 | h1
            · exact h1.2
            · omega
          rw [ih (fun j hj => hk j (List.mem_cons_of_mem _ hj)) d' rows' h, h2, hn]
          simp

/-- If nothing is refused, afterwards the records are the three migrations, in their order, whatever was recorded
before. -/
theorem C100_example_records (hs : ∀ n, mig.same n n = true) (d : FillDb × X) (rows : List MigKey)
    (hk : ∀ k ∈ rows, k ∈ exampleKeys) (h : (exampleRun mig F ddl d rows).2.2 = none) :
    (exampleRun mig F ddl d rows).2.1 = exampleKeys := by
  unfold exampleRun at h ⊢
  have hr := revert_rows mig (Spec.exampleDownStep F ddl) (exampleKeys.reverse.filter fun k => decide (k ∈ rows)) d rows
  cases hy : mig.revertSteps (Spec.exampleDownStep F ddl) d rows (exampleKeys.reverse.filter fun k => decide (k ∈ rows)) with
  | mk d1 y =>
    obtain ⟨rows1, e⟩ := y
    rw [hy] at h hr
    cases e with
    | some e => cases h
    | none =>
      have h0 : rows1 = [] := by
        rw [List.eq_nil_iff_forall_not_mem]
        intro j hj
        obtain ⟨h1, h2⟩ := hr rfl j hj
        refine h2 j ?_ ⟨rfl, hs _⟩
        rw [List.mem_filter, List.mem_reverse]
        exact ⟨hk j h1, by simpa using h1⟩
      rw [Spec.MigServer.andThen] at h ⊢
      rw [apply_rows mig _ _ (by decide +kernel) _ _ h, h0]
      rfl

end

/-! ### the pool of the code -/

theorem fifo_snoc (us : List PoolUse) (u : PoolUse) : fifo (us ++ [u]) = fifoStep (fifo us) u := by
  simp [fifo]

/-- the connections are in the queue or handed out, every one of them once. -/
theorem fifo_inv {us : List PoolUse} (h : History fifoPick us) :
    ((fifo us).1 ++ heldNow us).Perm (List.range (fifo us).2) := by
  induction h with
  | start => exact .refl _
  | @got us _ ih =>
    rw [fifo_snoc, heldNow_got]
    unfold fifoPick fifoStep
    revert ih
    rcases hq : fifo us with ⟨q, n⟩
    dsimp only
    cases q with
    | nil =>
      intro ih
      rw [List.range_succ]
      exact (ih.cons n).trans (List.perm_append_singleton ..).symm
    | cons i q =>
      intro ih
      exact List.perm_middle.trans ih
  | @back us i _ hi ih =>
    rw [fifo_snoc, heldNow_back]
    unfold fifoStep
    dsimp only
    rw [List.append_assoc]
    exact ((List.perm_cons_erase hi).symm.append_left _).trans ih

/-- The pool of the code, used by one task, hands out no connection twice. -/
theorem C100_pool : Exclusive fifoPick := by
  intro us h hm
  have hp := fifo_inv h
  unfold fifoPick at hm
  revert hp hm
  rcases fifo us with ⟨q, n⟩
  dsimp only
  cases q with
  | nil =>
    intro hm hp
    have := hp.subset hm
    rw [List.mem_range] at this
    exact absurd this (Nat.lt_irrefl _)
  | cons i q =>
    intro hm hp
    have hn := (hp.nodup_iff).2 List.nodup_range
    rw [List.cons_append, List.nodup_cons] at hn
    exact hn.1 (List.mem_append_right _ hm)

theorem inUse_add (s : Pool) (q : Req) (i : Nat) (h : Spec.heldBy q = some i) :
    (List.filterMap Spec.heldBy (s.reqs ++ [q])).Perm (i :: Spec.inUse s) := by
  rw [List.filterMap_append]
  simp only [List.filterMap_cons, h, List.filterMap_nil]
  exact List.perm_append_singleton ..

/-- These are executions of the pool of Model/Pool, if never more than its limit are handed out. -/
theorem C100_fifo (N : Nat) (us : List PoolUse) (h : History fifoPick us)
    (hN : ∀ p, p <+: us → (heldNow p).length ≤ N) :
    ∃ es s, Pool.new.run N es = some s ∧ s.queue = (fifo us).1 ∧ s.born = (fifo us).2 ∧
      (Spec.inUse s).Perm (heldNow us) := by
  suffices h' : ∃ es s, Pool.new.run N es = some s ∧ s.queue = (fifo us).1 ∧ s.born = (fifo us).2 ∧
      s.items = (fifo us).2 ∧ (fifo us).2 ≤ N ∧ (Spec.inUse s).Perm (heldNow us) by
    obtain ⟨es, s, h1, h2, h3, -, -, h4⟩ := h'
    exact ⟨es, s, h1, h2, h3, h4⟩
  induction h with
  | start => exact ⟨[], _, rfl, rfl, rfl, rfl, Nat.zero_le _, .refl _⟩
  | @got us hist ih =>
    obtain ⟨es, s, h1, h2, h3, h4, h5, h6⟩ := ih fun p hp => hN p (hp.trans (List.prefix_append ..))
    have hlen := hN _ (List.prefix_refl _)
    have hinv := (fifo_inv hist).length_eq
    rw [heldNow_got] at hlen
    rw [fifo_snoc, heldNow_got]
    unfold fifoPick fifoStep
    revert hlen hinv h2 h3 h4 h5
    rcases fifo us with ⟨q, n⟩
    dsimp only
    have hr : (s.reqs ++ [({ st := .waiting false, awake := true } : Req)])[s.reqs.length]? =
        some { st := .waiting false, awake := true } := by simp
    have hset : ∀ q' q'' : Req, (s.reqs ++ [q']).set s.reqs.length q'' = s.reqs ++ [q''] := by simp
    cases q with
    | cons i q =>
      intro h2 h3 h4 h5 hlen hinv
      refine ⟨es ++ [.request, .pop s.reqs.length], { s with queue := q, reqs := s.reqs ++ [{ st := .holding i, awake := false }] },
        Pool.run_append h1 ?_, rfl, h3, h4, h5, ?_⟩
      · simp [Pool.run, Pool.step, PoolEv.req, Pool.stepReq, h2, Pool.setReq]
      · exact (inUse_add s _ i rfl).trans (h6.cons i)
    | nil =>
      intro h2 h3 h4 h5 hlen hinv
      rw [List.nil_append, List.length_range] at hinv
      rw [List.length_cons] at hlen
      have hlt : n < N := by omega
      refine ⟨es ++ [.request, .pop s.reqs.length, .load s.reqs.length n, .cas s.reqs.length, .created s.reqs.length],
        { s with items := n + 1, born := n + 1, reqs := s.reqs ++ [{ st := .holding n, awake := false }] },
        Pool.run_append h1 ?_, h2, rfl, rfl, hlt, ?_⟩
      · simp [Pool.run, Pool.step, PoolEv.req, Pool.stepReq, h2, h3, h4, hlt, Pool.setReq]
      · exact (inUse_add s _ n rfl).trans (h6.cons n)
  | @back us i hist hi ih =>
    obtain ⟨es, s, h1, h2, h3, h4, h5, h6⟩ := ih fun p hp => hN p (hp.trans (List.prefix_append ..))
    have hinv := (fifo_inv hist).length_eq
    rw [List.length_append, List.length_range] at hinv
    have hpos := List.length_pos_of_mem hi
    rw [fifo_snoc, heldNow_back]
    unfold fifoStep
    dsimp only
    have hm := h6.symm.subset hi
    unfold Spec.inUse at hm
    obtain ⟨q, hq, hh⟩ := List.mem_filterMap.1 hm
    obtain ⟨r, hr⟩ := List.mem_iff_getElem?.1 hq
    obtain ⟨l1, l2, e1, e2⟩ := set_split hr
    have hst : q.st = .holding i := by
      unfold Spec.heldBy at hh
      split at hh
      · cases hh; assumption
      · cases hh
    refine ⟨es ++ [.put r], { s with queue := s.queue ++ [i], reqs := l1 ++ { q with st := .gone } :: l2 },
      Pool.run_append h1 ?_, by rw [h2], h3, h4, h5, ?_⟩
    · have hlt : s.queue.length < N := by rw [h2]; omega
      simp [Pool.run, Pool.step, PoolEv.req, hr, Pool.stepReq, hst, hlt, Pool.setReq, e2]
    · have hb : (Spec.inUse s).Perm (i :: List.filterMap Spec.heldBy (l1 ++ l2)) := by
        unfold Spec.inUse
        rw [e1, List.filterMap_append, List.filterMap_append, List.filterMap_cons, hh]
        exact List.perm_middle
      have ha : Spec.inUse { s with queue := s.queue ++ [i], reqs := l1 ++ { q with st := .gone } :: l2 } =
          List.filterMap Spec.heldBy (l1 ++ l2) := by
        unfold Spec.inUse
        dsimp only
        rw [List.filterMap_append, List.filterMap_append, List.filterMap_cons]
        rfl
      rw [ha]
      have := (hb.symm.trans h6).erase i
      rwa [List.erase_cons_head] at this

/-! ### a concrete case -/

namespace C100ex

/-- which of the two tables there are. -/
abbrev Tables := Bool × Bool

def mig : MigServer (FillDb × Tables) where
  foreign d _ := .ok d
  same := C69ex.ci
  duplicate _ := ⟨1062, "23000".toList, "dup".toList⟩
  long _ := .error ⟨1406, "22001".toList, []⟩
  outOfRange := ⟨1264, "22003".toList, []⟩
  noTable := ⟨1146, "42S02".toList, []⟩
  hasTable := ⟨1050, "42S01".toList, []⟩
  refuse _ _ _ := none
  order := List.reverse
  partitions := 0
  oneDesc := ⟨[], [], [], ['1'], [], 63, 1, 3, 129, 0⟩
  desc _ := ⟨['d'], "migrations".toList, "migrations".toList, [], [], 33, 5, 0, 0x5021, 0⟩
  affected n := .ofNat n
  status := 2
  warnings := 0
  message := []
  protocol41 := true

def taken : SqlError := ⟨1050, "42S01".toList, []⟩
def absent : SqlError := ⟨1051, "42S02".toList, []⟩

/-- `user` can be dropped only if there are no addresses. -/
def ddl (d : FillDb × Tables) (sql : Str) : Except SqlError (FillDb × Tables) :=
  if sql = createUserSql then if d.2.1 then .error taken else .ok (⟨[], [], none⟩, true, d.2.2)
  else if sql = createAddressSql then if d.2.2 then .error taken else .ok ({ d.1 with addresses := [] }, d.2.1, true)
  else if sql = dropUserSql then if d.2.1 && !d.2.2 then .ok (⟨[], [], none⟩, false, d.2.2) else .error absent
  else if sql = dropAddressSql then if d.2.2 then .ok ({ d.1 with addresses := [] }, d.2.1, false) else .error absent
  else .error absent

theorem fairMig : FairMig mig := by
  have h5 : ∀ (e : SqlError) (n : UInt16) (s : Str), e.code = n → e.state = s → (utf8 s).length = 5 → n ≠ 0xFFFF →
      (utf8 e.state).length = 5 ∧ e.code ≠ 0xFFFF := by
    rintro e _ _ rfl rfl h1 h2
    exact ⟨h1, h2⟩
  refine ⟨by decide, fun e he => ?_, fun rows => List.reverse_perm rows, fun col => ?_, ?_⟩
  · cases he with
    | foreign h => cases h
    | duplicate => exact h5 _ 1062 "23000".toList rfl rfl (by decide +kernel) (by decide)
    | long h => cases h; exact h5 _ _ _ rfl rfl (by decide +kernel) (by decide)
    | outOfRange => exact h5 _ 1264 "22003".toList rfl rfl (by decide +kernel) (by decide)
    | noTable => exact h5 _ 1146 "42S02".toList rfl rfl (by decide +kernel) (by decide)
    | hasTable => exact h5 _ 1050 "42S01".toList rfl rfl (by decide +kernel) (by decide)
    | refuse h => cases h
  · show shortNames ⟨['d'], "migrations".toList, "migrations".toList, [], [], 33, 5, 0, 0x5021, 0⟩ ∧
      (0x5021 : Nat) < 2 ^ 16 ∧ (33 : Nat) < 2 ^ 16 ∧ (5 : Nat) < 2 ^ 32
    unfold shortNames
    decide +kernel
  · refine ⟨.long, ?_, 4, false, rfl, by decide, by decide +kernel⟩
    show DescOk ⟨[], [], [], ['1'], [], 63, 1, 3, 129, 0⟩ .long
    unfold DescOk shortNames
    decide +kernel

theorem fairDdl : FairDdl ddl := by
  intro d sql e h
  have h1 : (utf8 taken.state).length = 5 ∧ taken.code ≠ 0xFFFF := by decide +kernel
  have h2 : (utf8 absent.state).length = 5 ∧ absent.code ≠ 0xFFFF := by decide +kernel
  have : e = taken ∨ e = absent := by
    unfold ddl at h
    split at h
    · split at h <;> cases h; exact .inl rfl
    · split at h
      · split at h <;> cases h; exact .inl rfl
      · split at h
        · split at h <;> cases h; exact .inr rfl
        · split at h
          · split at h <;> cases h; exact .inr rfl
          · cases h; exact .inr rfl
  rcases this with rfl | rfl
  · exact h1
  · exact h2

def server : PoolServer (FillState × Tables) (FillDb × Tables) := Spec.fillPool mig (fun _ => C99.server) ddl

-- the hypotheses of `C100_example` hold
example (pick : List PoolUse → Nat) (hx : Exclusive pick) := C100_example (ddl := ddl) (F := fun _ => C99.server) fairMig fairDdl
  (fun _ => C99.fair) (fun _ => rfl) true C99.noFloats pick hx

def rec0 : MigKey := (⟨0, 1, 0⟩, "CreateUser".toList)
def rec1 : MigKey := (⟨0, 1, 0⟩, "CreateAddress".toList)
def rec2 : MigKey := (⟨0, 1, 1⟩, "UserAddPrimaryAddress".toList)

/-- two migrations are recorded, there are users and addresses. -/
def st : MigStore (FillState × Tables) := ⟨some [rec0, rec1], C99.state, true, true⟩

-- starting over: the tables are dropped (addresses first) and created again
example : (exampleRun mig (fun _ => C99.server) ddl (C99.db, true, true) [rec0, rec1]).2 = (exampleKeys, none) ∧
    (exampleRun mig (fun _ => C99.server) ddl (C99.db, true, true) [rec0, rec1]).1.1.users = [] := by decide +kernel

-- if the records say something else than the tables: the first statement is refused
example : ((exampleRun mig (fun _ => C99.server) ddl (C99.db, true, true) []).2.2.map (·.code)) = some 1050 := by decide +kernel

/-- going to 0.1.0 and up: the commands, on these connections. -/
def cmds (i0 i1 i2 i3 i4 : Nat) : List (Nat × Bytes) :=
  [(i0, cmdOf existsSql), (i0, cmdOf selectSql), (i1, cmdOf fillAlterSql), (i1, cmdOf fillUsersSql),
   (i2, 0x16 :: utf8 fillAddressesSql), (i3, 0x16 :: utf8 fillUpdateSql),
   (i2, [0x17, .ofNat i2, 0, 0, 0, 0, 1, 0, 0, 0, 0, 1, 3, 0x80, 1, 0, 0, 0]),
   (i2, [0x17, .ofNat i2, 0, 0, 0, 0, 1, 0, 0, 0, 0, 1, 3, 0x80, 2, 0, 0, 0]),
   (i3, [0x17, .ofNat i3, 0, 0, 0, 0, 1, 0, 0, 0, 0, 1, 3, 0x80, 3, 0x80, 11, 0, 0, 0, 2, 0, 0, 0]),
   (i2, [0x17, .ofNat i2, 0, 0, 0, 0, 1, 0, 0, 0, 0, 1, 3, 0x80, 3, 0, 0, 0]),
   (i4, cmdOf (insertSql rec2))]

def start (cs : List (Nat × Bytes)) (pick : List PoolUse → Nat) : PoolMig where
  conns := ⟨fun i => exConn (((server.talk st cs).map fun x => x.2 i).getD []), []⟩
  hist := []
  pick := pick
  applied _ := []

def prog : SM PoolMig Error Unit := migrateMain true C99.noFloats exampleLists (exampleUp C99.noFloats) exampleDown ⟨0, 1, 0⟩

/-- the pool of the code: the record is written on the connection that came back first. -/
def cmdsA := cmds 0 0 1 2 2
/-- a pool that gives a new connection every time. -/
def cmdsB := cmds 0 2 3 4 8

example : ((server.talk st cmdsA).map fun x => (x.1.table, x.1.world.1.db.primary.map fun p => [1, 2, 3].map p)) =
    some (some [rec0, rec1, rec2], some [none, some 11, none]) := by decide +kernel
example : ((server.talk st cmdsB).map fun x => (x.1.table, x.1.world.1.db.primary.map fun p => [1, 2, 3].map p)) =
    some (some [rec0, rec1, rec2], some [none, some 11, none]) := by decide +kernel

/-- what is left of a run: the outcome, what was written, the queue of the pool and how many there are. -/
def seen (y : Out Error Unit × PoolMig) : Out Error Unit × List (Nat × UInt8) × List Nat × Nat :=
  (y.1, written y.2.conns.log, fifo y.2.hist)

example : seen (prog (start cmdsA fifoPick)) = (.ok (), written (fillLog cmdsA), [1, 0, 2], 3) := by decide +kernel
example : (seen (prog (start cmdsB List.length))).2.1 = written (fillLog cmdsB) := by decide +kernel

end C100ex

end Verif

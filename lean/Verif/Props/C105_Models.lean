import Verif.Model.NarrowModels
import Verif.Props.C105_Connect
import Verif.Proofs.Causal
import Verif.Props.C69_MigServer
import Verif.Props.C52_ActiveModel
import Verif.Props.C68_MigratorWire

/-!
# C105 A target with addresses of 32 bits behaves like one with 64: models and migrations
-/

namespace Verif

open Spec (Tame UsualStream Took)

/-- no result that is still to be read has more columns than a target with 32 bits has room for. -/
def Spec.FewColumns (c : Conn) : Prop :=
  ∀ c1 sql rs c2, c1.rx <:+ c.rx → query sql c1 = (.ok rs, c2) → rs.columns.length ≤ 41297762

open Spec (FewColumns)

namespace Narrow

instance : Onward FewColumns := ⟨fun _ _ h hc c1 sql rs c2 hs hr => hc c1 sql rs c2 (hs.trans h) hr⟩

/-- what fits, and has few columns. -/
def Fits (c : Conn) : Prop := Tame c ∧ FewColumns c

instance : Onward Fits := ⟨fun c c' h hc => ⟨Onward.later c c' h hc.1, Onward.later c c' h hc.2⟩⟩

/-- ways to compare code that go through it step by step. -/
structure Stepwise {σ ε : Type} (I : σ → Prop) (Rel : ∀ {α : Type}, SM σ ε α → SM σ ε α → Prop) : Prop where
  same : ∀ {α : Type} {m : SM σ ε α}, Keeps I m → Rel m m
  bind : ∀ {α β : Type} {m m' : SM σ ε α} {f f' : α → SM σ ε β}, Rel m m' → (∀ a, Rel (f a) (f' a)) →
    Rel (m >>= f) (m' >>= f')

theorem stepwise_alike {σ ε : Type} (I : σ → Prop) :
    Stepwise (σ := σ) (ε := ε) I (fun m m' => Alike I never Eq m m') :=
  ⟨fun h => Alike.same h, fun h hf => Alike.bind h fun a _ e => e ▸ hf a⟩

/-- the same, and going on. -/
def ExactOn {σ ε α : Type} (I : σ → Prop) (m m' : SM σ ε α) : Prop := Exact I m m' ∧ Keeps I m

theorem stepwise_exact {σ ε : Type} (I : σ → Prop) :
    Stepwise (σ := σ) (ε := ε) I (fun m m' => ExactOn I m m') :=
  ⟨fun h => ⟨Exact.refl _, h⟩, fun h hf => ⟨Exact.bind h.1 h.2 fun a => (hf a).1, h.2.bind fun a => (hf a).2⟩⟩

/-! ### models -/

section
variable {I : Conn → Prop} {Rel : ∀ {α : Type}, M α → M α → Prop} (hR : Stepwise I Rel)
include hR

omit hR in
theorem keeps_plain : ∀ fs, Keeps I (plainValues fs)
  | [] => Keeps.pure _
  | (_, none) :: fs => keeps_plain fs
  | (_, some _) :: fs => (Keeps.ofOut _).bind fun _ => (keeps_plain fs).bind fun _ => Keeps.pure _

omit hR in
theorem keeps_member (f : Str) : ∀ fs, Keeps I (memberValues f fs)
  | [] => Keeps.pure _
  | (_, _) :: fs => (Keeps.ofOut _).bind fun _ => (keeps_member f fs).bind fun _ => Keeps.pure _

omit hR in
theorem keeps_struct : ∀ fs, Keeps I (structValues fs)
  | [] => Keeps.pure _
  | (_, none) :: fs => keeps_struct fs
  | (f, some ms) :: fs => (keeps_member f ms).bind fun _ => (keeps_struct fs).bind fun _ => Keeps.pure _

variable (hx : ∀ t vs, Rel (Verif.executeInsert t vs) (executeInsert t vs))
include hx

set_option linter.unusedSectionVars false in
mutual
theorem insert_rel : ∀ m : ActiveModel, Rel m.insert (insert m)
  | .mk t _ plain structs refs => by
    unfold ActiveModel.insert insert
    exact hR.bind (hR.same (keeps_plain plain)) fun _ => hR.bind (hR.same (keeps_struct structs)) fun _ =>
      hR.bind (refs_rel refs) fun _ => hx _ _

theorem refs_rel : ∀ r : ActiveRefs, Rel (Verif.refValues r) (refValues r)
  | .nil => by unfold Verif.refValues refValues; exact hR.same (Keeps.pure _)
  | .set _ _ r => by
    unfold Verif.refValues refValues
    exact hR.bind (refs_rel r) fun _ => hR.same (Keeps.pure _)
  | .insert _ m r => by
    unfold Verif.refValues refValues
    exact hR.bind (insert_rel m) fun _ => hR.bind (refs_rel r) fun _ => hR.same (Keeps.pure _)
  | .unset _ r => by unfold Verif.refValues refValues; exact refs_rel r
end

theorem update_rel (hu : ∀ sql vs, Rel (do let p ← Verif.prepareStatement sql; let _ ← p.execute vs; pure () : M Unit)
      (do let p ← prepareStatement sql; let _ ← stmtExecute p vs; pure ()))
    (id : Value) (primary : Str) (m : ActiveModel) : Rel (m.update id primary) (update id primary m) := by
  obtain ⟨t, pr, plain, structs, refs⟩ := m
  unfold ActiveModel.update update
  refine hR.bind ?_ fun vs => ?_
  · exact hR.bind (hR.same (keeps_plain plain)) fun _ => hR.bind (hR.same (keeps_struct structs)) fun _ =>
      hR.bind (refs_rel hR hx refs) fun _ => hR.same (Keeps.pure _)
  · split
    · exact hu _ _
    · exact hR.same (Keeps.pure _)

end

/-! ### the migrator -/

section
variable {σ ε : Type} {I : σ → Prop} {Rel : ∀ {α : Type}, SM σ ε α → SM σ ε α → Prop} (hR : Stepwise I Rel)
  {E E' : MigEnv σ ε} (ha : E'.applied = E.applied) (hs : E'.setApplied = E.setApplied)
  (hI : ∀ a s, I s → I (E.setApplied a s)) (he : ∀ x, Rel (E.effect x) (E'.effect x))
include hR ha hs hI he

theorem upOne_rel (k : MigKey) : Rel (E.upOne k) (E'.upOne k) := by
  unfold MigEnv.upOne
  rw [ha, hs]
  refine hR.bind (hR.same Keeps.get) fun s => ?_
  cases getApplied (E.applied s) k with
  | some _ => exact hR.same (Keeps.pure _)
  | none => exact hR.bind (he _) fun _ => hR.bind (hR.same (Keeps.modify fun _ h => hI _ _ h)) fun _ =>
      hR.bind (he _) fun _ => he _

theorem upNames_rel (v : Version) : ∀ ns, Rel (E.upNames v ns) (E'.upNames v ns)
  | [] => hR.same (Keeps.pure _)
  | _ :: ns => hR.bind (upOne_rel hR ha hs hI he _) fun _ => upNames_rel v ns

theorem upVersion_rel (t : Option Version) (m : MigList) : Rel (E.upVersion t m) (E'.upVersion t m) := by
  unfold MigEnv.upVersion
  cases t with
  | none => exact upNames_rel hR ha hs hI he _ _
  | some v =>
    dsimp only
    split
    · exact hR.same (Keeps.pure _)
    · exact upNames_rel hR ha hs hI he _ _

theorem upTo_rel (t : Option Version) : ∀ ms, Rel (E.upToVersion t ms) (E'.upToVersion t ms)
  | [] => hR.same (Keeps.pure _)
  | _ :: ms => hR.bind (upVersion_rel hR ha hs hI he _ _) fun _ => upTo_rel t ms

theorem downAt_rel (k : MigKey) (i : Nat) : Rel (E.downAt k i) (E'.downAt k i) := by
  unfold MigEnv.downAt
  rw [ha, hs]
  exact hR.bind (he _) fun _ => hR.bind (hR.same (Keeps.modify fun _ h => hI _ _ h)) fun _ =>
    hR.bind (he _) fun _ => he _

theorem downOne_rel (k : MigKey) : Rel (E.downOne k) (E'.downOne k) := by
  unfold MigEnv.downOne
  rw [ha]
  refine hR.bind (hR.same Keeps.get) fun s => ?_
  cases getApplied (E.applied s) k with
  | some _ => exact downAt_rel hR ha hs hI he _ _
  | none => exact hR.same (Keeps.pure _)

theorem downNames_rel (v : Version) : ∀ ns, Rel (E.downNames v ns) (E'.downNames v ns)
  | [] => hR.same (Keeps.pure _)
  | _ :: ns => hR.bind (downOne_rel hR ha hs hI he _) fun _ => downNames_rel v ns

theorem downVersion_rel (t : Version) (m : MigList) : Rel (E.downVersion t m) (E'.downVersion t m) := by
  unfold MigEnv.downVersion
  split
  · exact downNames_rel hR ha hs hI he _ _
  · exact hR.same (Keeps.pure _)

theorem downVersions_rel (t : Version) : ∀ ms, Rel (E.downVersions t ms) (E'.downVersions t ms)
  | [] => hR.same (Keeps.pure _)
  | _ :: ms => hR.bind (downVersion_rel hR ha hs hI he _ _) fun _ => downVersions_rel t ms

theorem toVersion_rel (t : Version) (ms : List MigList) : Rel (E.toVersion t ms) (E'.toVersion t ms) :=
  hR.bind (upTo_rel hR ha hs hI he _ _) fun _ => downVersions_rel hR ha hs hI he _ _

theorem oneDownKeys_rel : ∀ ks, Rel (E.oneDownKeys ks) (E'.oneDownKeys ks)
  | [] => hR.same (Keeps.pure _)
  | k :: ks => by
    unfold MigEnv.oneDownKeys
    rw [ha]
    refine hR.bind (hR.same Keeps.get) fun s => ?_
    cases getApplied (E.applied s) k with
    | some _ => exact hR.bind (downAt_rel hR ha hs hI he _ _) fun _ => hR.same (Keeps.pure _)
    | none => exact oneDownKeys_rel ks

theorem downTo_rel (t : Version) (ms : List MigList) : Rel (E.downToVersion t ms) (E'.downToVersion t ms) :=
  downVersions_rel hR ha hs hI he t ms.reverse

theorem oneDown_rel (ms : List MigList) : Rel (E.oneDown ms) (E'.oneDown ms) := oneDownKeys_rel hR ha hs hI he _

end

/-! ### the calls -/

theorem shrinks_response : Shrinks Verif.readResponse := by
  refine Shrinks.readPacket.bind fun p => Shrinks.get.bind fun c => ?_
  cases p with
  | nil => exact Shrinks.fail _
  | cons b r =>
    dsimp only
    repeat' split
    · exact (Shrinks.ofOut _).bind fun _ => Shrinks.pure _
    · exact (Shrinks.ofOut _).bind fun _ => Shrinks.pure _
    · exact Shrinks.fail _

theorem shrinks_okOr (r : Except ErrPacket OkPacket) : Shrinks (okOrServerError r) := by
  cases r with
  | ok _ => exact Shrinks.pure _
  | error _ => exact Shrinks.fail _

theorem shrinks_executeQuery (sql : Str) : Shrinks (Verif.executeQuery sql) :=
  (shrinks_executeCommand _ _).bind fun _ => shrinks_response.bind fun r => shrinks_okOr r

theorem shrinks_query (sql : Str) : Shrinks (Verif.query sql) :=
  (shrinks_executeCommand _ _).bind fun _ => shrinks_read

theorem shrinks_execute (p : Prepared) (vs : List Value) : Shrinks (p.execute vs) := by
  unfold Prepared.execute
  split
  · exact Shrinks.fail _
  · exact (shrinks_sendExecute _ _).bind fun _ => shrinks_response.bind fun r => shrinks_okOr r

theorem shrinks_prepare (sql : Str) : Shrinks (Verif.prepareStatement sql) := by
  refine (shrinks_executeCommand _ _).bind fun _ => Shrinks.readPacket.bind fun p => Shrinks.get.bind fun c => ?_
  cases p with
  | nil => exact Shrinks.fail _
  | cons b r =>
    dsimp only
    repeat' split
    · exact (Shrinks.ofOut _).bind fun _ => (Shrinks.skipPackets _).bind fun _ => Shrinks.pure _
    · exact (Shrinks.ofOut _).bind fun _ => Shrinks.fail _
    · exact Shrinks.fail _

theorem shrinks_collectLoop {R : Type} (rd : RowReader R) : ∀ n (rs : RSet), Shrinks (RSet.collectLoop rd n rs)
  | 0, _ => Shrinks.crash
  | n + 1, rs => by
    unfold RSet.collectLoop
    refine (shrinks_next rs).bind fun x => ?_
    obtain ⟨rs1, r⟩ := x
    cases r with
    | none => exact Shrinks.pure _
    | some r => exact (shrinks_collectLoop rd n rs1).bind fun _ => Shrinks.pure _

theorem shrinks_collect {R : Type} (rd : RowReader R) (rs : RSet) : Shrinks (rs.collect rd) := fun c =>
  shrinks_collectLoop rd (c.rx.length + 2) rs c

/-- with the columns. -/
theorem Alike.fits {α : Type} {R : α → α → Prop} {m m' : M α} (h : Alike Tame never R m m') (hs : Shrinks m) :
    Alike Fits never R m m' := fun c a c' hc e =>
  (h c a c' hc.1 e).imp_right fun ⟨h1, h2⟩ => ⟨⟨h1, Onward.later c c' (hs c a c' e) hc.2⟩, h2⟩

theorem query_fits (sql : Str) : Alike Fits never Spec.SetAlike (Verif.query sql) (query sql) := fun c a c' hc e => by
  rcases query_alike sql c a c' hc.1 e with h | ⟨h1, h2⟩
  · have := hc.2 c sql a c' (List.suffix_refl _) e
    unfold Many columnLimit at h
    omega
  · exact .inr ⟨⟨h1, Onward.later c c' (shrinks_query sql c a c' e) hc.2⟩, h2⟩

theorem executeInsert_alike (t : Str) (vs : List NamedValue) :
    Alike Tame never Eq (Verif.executeInsert t vs) (executeInsert t vs) :=
  Alike.bind (prepare_alike _) fun p _ e => e ▸ Alike.bind (stmtExecute_alike p _) fun _ _ h => Alike.pure h.lastInsertId.symm

theorem executeInsert_exact (t : Str) (vs : List NamedValue) :
    ExactOn UsualStream (Verif.executeInsert t vs) (executeInsert t vs) :=
  ⟨Exact.bind (prepare_exact _) (shrinks_prepare _).keeps fun p => Exact.first (stmtExecute_exact p _),
    ((shrinks_prepare _).bind fun p => (shrinks_execute p _).bind fun _ => Shrinks.pure _).keeps⟩

theorem loadLoop_fits (fp : FloatParse) (ms : List MigList) : ∀ n {rs rs' : RSet} (applied : Version → List Str),
    Spec.SetAlike rs rs' → Alike Fits never Eq (Verif.loadLoop fp ms n rs applied) (loadLoop fp ms n rs' applied)
  | 0, _, _, _, _ => Alike.crash _
  | n + 1, rs, rs', applied, hr => by
    unfold Verif.loadLoop loadLoop
    refine Alike.bind ((next_alike (textReader_alike fp migrationOf) hr).fits (shrinks_next rs)) fun x x' hx => ?_
    obtain ⟨rs1, r⟩ := x
    obtain ⟨rs1', r'⟩ := x'
    obtain ⟨hx, rfl⟩ : Spec.SetAlike rs1 rs1' ∧ r' = r := hx
    cases r' with
    | none => exact Alike.pure rfl
    | some k => exact Alike.ite (loadLoop_fits fp ms n _ hx) (Alike.crash _)

theorem open_fits (debug : Bool) (fp : FloatParse) (ms : List MigList) :
    Alike Fits never Eq (Verif.migratorOpen debug fp ms) (migratorOpen debug fp ms) := by
  refine Alike.ite (Alike.crash _) (Alike.bind (R := Eq) ?_ fun _ _ _ => ?_)
  · refine Alike.bind (query_fits _) fun rs rs' hr => ?_
    refine Alike.bind ((collect_alike (textReader_alike fp mkPlain) hr).fits (shrinks_collect _ _)) fun x x' hx => ?_
    obtain ⟨rs1, r⟩ := x
    obtain ⟨rs1', r'⟩ := x'
    obtain ⟨_, rfl⟩ : Spec.SetAlike rs1 rs1' ∧ r' = r := hx
    exact Alike.ite (Alike.bind ((executeQuery_alike _).fits (shrinks_executeQuery _)) fun _ _ _ => Alike.pure rfl)
      (Alike.pure rfl)
  · exact Alike.bind (query_fits _) fun rs rs' hr => Alike.then Shrinks.get.keeps fun c => loadLoop_fits fp ms _ _ hr

theorem loadLoop_exact (fp : FloatParse) (ms : List MigList) : ∀ n (rs : RSet) (applied : Version → List Str),
    Exact UsualStream (Verif.loadLoop fp ms n rs applied) (loadLoop fp ms n rs applied)
  | 0, _, _ => Exact.refl _
  | n + 1, rs, applied => by
    unfold Verif.loadLoop loadLoop
    refine Exact.bind (next_exact (textReader_same fp migrationOf) rs) (shrinks_next rs).keeps fun x => ?_
    obtain ⟨rs1, r⟩ := x
    cases r with
    | none => exact Exact.refl _
    | some k => exact Exact.ite (loadLoop_exact fp ms n _ _) (Exact.refl _)

theorem open_exact (debug : Bool) (fp : FloatParse) (ms : List MigList) :
    Exact UsualStream (Verif.migratorOpen debug fp ms) (migratorOpen debug fp ms) := by
  refine Exact.ite (Exact.refl _) (Exact.bind ?_ ?_ fun _ => ?_)
  · refine Exact.bind (query_exact _) (shrinks_query _).keeps fun rs => ?_
    refine Exact.bind (collect_exact (textReader_same fp mkPlain) rs) (shrinks_collect _ _).keeps fun x => ?_
    exact Exact.ite (Exact.first (executeQuery_exact _)) (Exact.refl _)
  · refine ((shrinks_query _).bind fun rs => (shrinks_collect _ rs).bind fun x => ?_).keeps
    obtain ⟨rs1, r⟩ := x
    dsimp only
    split
    · exact (shrinks_executeQuery _).bind fun _ => Shrinks.pure _
    · exact Shrinks.pure _
  · exact Exact.bind (query_exact _) (shrinks_query _).keeps fun rs => Exact.then Shrinks.get.keeps fun c =>
      loadLoop_exact fp ms _ rs _

theorem onConn_alike {α : Type} {I : Conn → Prop} {m m' : M α} (h : Alike I never Eq m m') :
    Alike (fun s : MigWire => I s.conn) never Eq (onConn m) (onConn m') := by
  intro s a s' hs e
  rcases hm : m s.conn with ⟨o, c'⟩
  unfold onConn at e ⊢
  rw [hm] at e
  obtain ⟨rfl, rfl⟩ : o = .ok a ∧ { s with conn := c' } = s' := by
    exact ⟨congrArg Prod.fst e, congrArg Prod.snd e⟩
  rcases h s.conn a c' hs hm with h | ⟨h1, a', h2, h3⟩
  · exact h.elim
  · exact .inr ⟨h1, a', by rw [h2], h3⟩

theorem onConn_exact {α : Type} {I : Conn → Prop} {m m' : M α} (h : ExactOn I m m') :
    ExactOn (fun s : MigWire => I s.conn) (onConn m) (onConn m') := by
  refine ⟨fun s hs => ?_, fun s a s' hs e => ?_⟩
  · unfold onConn
    rw [h.1 s.conn hs]
  · rcases hm : m s.conn with ⟨o, c'⟩
    unfold onConn at e
    rw [hm] at e
    obtain ⟨rfl, rfl⟩ : o = .ok a ∧ { s with conn := c' } = s' := ⟨congrArg Prod.fst e, congrArg Prod.snd e⟩
    exact h.2 s.conn a c' hs hm

theorem effect_alike (up down : MigKey → Str) (x : MigEff) :
    Alike (fun s : MigWire => Tame s.conn) never Eq ((Verif.wired up down).effect x) ((wired up down).effect x) := by
  have h : ∀ sql, Alike Tame never Eq (do let _ ← Verif.executeQuery sql; pure () : M Unit)
      (do let _ ← executeQuery sql; pure ()) := fun sql =>
    Alike.bind (executeQuery_alike sql) fun _ _ _ => Alike.pure rfl
  cases x with
  | conn => exact Alike.pure rfl
  | up k => exact onConn_alike (h _)
  | down k => exact onConn_alike (h _)
  | insert k => exact onConn_alike (h _)
  | delete k => exact onConn_alike (h _)

theorem effect_exact (up down : MigKey → Str) (x : MigEff) :
    ExactOn (fun s : MigWire => UsualStream s.conn) ((Verif.wired up down).effect x) ((wired up down).effect x) := by
  have h : ∀ sql, ExactOn UsualStream (do let _ ← Verif.executeQuery sql; pure () : M Unit)
      (do let _ ← executeQuery sql; pure ()) := fun sql =>
    ⟨Exact.first (executeQuery_exact sql), ((shrinks_executeQuery sql).bind fun _ => Shrinks.pure _).keeps⟩
  cases x with
  | conn => exact ⟨Exact.refl _, Keeps.pure _⟩
  | up k => exact onConn_exact (h _)
  | down k => exact onConn_exact (h _)
  | insert k => exact onConn_exact (h _)
  | delete k => exact onConn_exact (h _)

end Narrow

/-- **C105** (partial): storing a model, with all that it refers to, and updating one: what succeeds on a target with 64 bits
succeeds with 32 bits, with the same key, sends the same and leaves the same. -/
theorem C105_models_partial (m : ActiveModel) (id : Value) (primary : Str) :
    Narrow.Follows Eq m.insert (Narrow.insert m) ∧
    Narrow.Follows Eq (m.update id primary) (Narrow.update id primary m) := by
  have hR := Narrow.stepwise_alike (ε := Error) Tame
  refine ⟨(Narrow.insert_rel hR Narrow.executeInsert_alike m).follows,
    (Narrow.update_rel hR Narrow.executeInsert_alike (fun sql vs => ?_) id primary m).follows⟩
  exact Narrow.Alike.bind (Narrow.prepare_alike _) fun p _ e => e ▸
    Narrow.Alike.bind (Narrow.stmtExecute_alike p _) fun _ _ _ => Narrow.Alike.pure rfl

/-- **C105**: on a stream in which nothing looks like a length of 2^32 or more nothing differs at all, whatever the outcome. -/
theorem C105_models_same (c : Conn) (hc : UsualStream c) (m : ActiveModel) (id : Value) (primary : Str) :
    Narrow.insert m c = m.insert c ∧ Narrow.update id primary m c = m.update id primary c := by
  have hR := Narrow.stepwise_exact (ε := Error) UsualStream
  refine ⟨(Narrow.insert_rel hR Narrow.executeInsert_exact m).1 c hc,
    (Narrow.update_rel hR Narrow.executeInsert_exact (fun sql vs => ?_) id primary m).1 c hc⟩
  exact ⟨Narrow.Exact.bind (Narrow.prepare_exact _) (Narrow.shrinks_prepare _).keeps fun p =>
      Narrow.Exact.first (Narrow.stmtExecute_exact p _),
    ((Narrow.shrinks_prepare _).bind fun p => (Narrow.shrinks_execute p _).bind fun _ => Narrow.Shrinks.pure _).keeps⟩

/-- **C105** (partial): opening a migrator: if it can be opened on a target with 64 bits, it can with 32 bits, with the same
migrations applied, unless a result has more columns than there is memory for. -/
theorem C105_open_partial (debug : Bool) (fp : FloatParse) (ms : List MigList) (c c' : Conn) (applied : Version → List Str)
    (hc : Tame c) (hf : FewColumns c) (h : migratorOpen debug fp ms c = (.ok applied, c')) :
    Narrow.migratorOpen debug fp ms c = (.ok applied, c') := by
  rcases Narrow.open_fits debug fp ms c applied c' ⟨hc, hf⟩ h with h | ⟨_, a', h', rfl⟩
  · exact h.elim
  · exact h'

/-- one packet for each column. -/
theorem columnDefs_rx {n : Nat} {c c' : Conn} {cs : List Column} (h : readColumnDefs n c = (.ok cs, c')) :
    c'.rx.length + n ≤ c.rx.length := by
  induction n generalizing c cs c' with
  | zero => cases h; exact Nat.le_refl _
  | succ n ih =>
    unfold readColumnDefs at h
    obtain ⟨_, _, h1, h⟩ := SM.bind_eq_ok.1 h
    obtain ⟨_, _, h2, h⟩ := SM.bind_eq_ok.1 h
    obtain ⟨_, _, h3, h⟩ := SM.bind_eq_ok.1 h
    cases h
    have := ih h3
    have := readPacket_shrinks h1
    have := (Narrow.Shrinks.ofOut _ _ _ _ h2).length_le
    omega

/-- **C105**: what is to come is not longer than this many bytes: then no result has more columns than these. -/
theorem C105_few (c : Conn) (h : c.rx.length ≤ 41297762) : FewColumns c := by
  intro c1 sql rs c2 hs hq
  unfold query at hq
  obtain ⟨_, c3, h1, h2⟩ := SM.bind_eq_ok.1 hq
  have h3 : c3.rx.length ≤ 41297762 :=
    Nat.le_trans ((Narrow.shrinks_executeCommand _ _ _ _ _ h1).length_le) (Nat.le_trans hs.length_le h)
  unfold RSet.read at h2
  obtain ⟨p, c4, h4, h2⟩ := SM.bind_eq_ok.1 h2
  obtain ⟨_, _, h5, h2⟩ := SM.bind_eq_ok.1 h2
  cases h5
  have h6 := readPacket_shrinks h4
  have hcols : ∀ q : Bytes, (do SM.modify fun c => { c with pendingResult := true }
                                let n ← liftP (runP P.checkedEatLenencInt q)
                                let cols ← readColumns n.toNat
                                pure { columns := cols, okPacket := none } : M RSet) c4 = (.ok rs, c2) →
      rs.columns.length ≤ 41297762 := by
    intro q e
    obtain ⟨_, c5, e1, e⟩ := SM.bind_eq_ok.1 e
    cases e1
    obtain ⟨n, c6, e2, e⟩ := SM.bind_eq_ok.1 e
    obtain ⟨cols, c7, e3, e⟩ := SM.bind_eq_ok.1 e
    cases e
    unfold readColumns at e3
    split at e3
    · cases e3
    · have := columnDefs_rx e3
      have := Narrow.readColumnDefs_length e3
      have := (Narrow.Shrinks.ofOut _ _ _ _ e2).length_le
      dsimp only at *
      omega
  cases p with
  | nil => exact hcols _ h2
  | cons b r =>
    dsimp only at h2
    split at h2
    · obtain ⟨_, _, _, h2⟩ := SM.bind_eq_ok.1 h2
      obtain ⟨_, _, _, h2⟩ := SM.bind_eq_ok.1 h2
      cases h2
      exact Nat.zero_le _
    · split at h2
      · cases h2
      · split at h2
        · obtain ⟨_, _, _, h2⟩ := SM.bind_eq_ok.1 h2
          cases h2
        · exact hcols _ h2

/-- **C105** (partial): moving up and down: what succeeds on a target with 64 bits succeeds with 32 bits, sends the same, and
leaves the same migrations applied. -/
theorem C105_move_partial (up down : MigKey → Str) (ms : List MigList) (target : Option Version) (v : Version)
    (s s' : MigWire) (hs : Tame s.conn) :
    ((wired up down).upToVersion target ms s = (.ok (), s') →
      (Narrow.wired up down).upToVersion target ms s = (.ok (), s')) ∧
    ((wired up down).downToVersion v ms s = (.ok (), s') →
      (Narrow.wired up down).downToVersion v ms s = (.ok (), s')) ∧
    ((wired up down).toVersion v ms s = (.ok (), s') →
      (Narrow.wired up down).toVersion v ms s = (.ok (), s')) ∧
    ∀ b, (wired up down).oneDown ms s = (.ok b, s') → (Narrow.wired up down).oneDown ms s = (.ok b, s') := by
  have hR := Narrow.stepwise_alike (ε := Error) (fun s : MigWire => Tame s.conn)
  have ha : (Narrow.wired up down).applied = (wired up down).applied := rfl
  have hs' : (Narrow.wired up down).setApplied = (wired up down).setApplied := rfl
  have he := Narrow.effect_alike up down
  have hI : ∀ a s, Tame (MigWire.conn s) → Tame ((wired up down).setApplied a s).conn := fun _ _ h => h
  have key : ∀ {α : Type} {m m' : SM MigWire Error α} (a : α), Narrow.Alike (fun s => Tame s.conn) Narrow.never Eq m m' →
      m s = (.ok a, s') → m' s = (.ok a, s') := by
    intro α m m' a h e
    rcases h s a s' hs e with h | ⟨_, a', h', rfl⟩
    · exact h.elim
    · exact h'
  exact ⟨key () (Narrow.upTo_rel hR ha hs' hI he target ms), key () (Narrow.downTo_rel hR ha hs' hI he v ms),
    key () (Narrow.toVersion_rel hR ha hs' hI he v ms), fun b => key b (Narrow.oneDown_rel hR ha hs' hI he ms)⟩

/-- **C105**: on a stream in which nothing looks like a length of 2^32 or more the migrator does the same, whatever the
outcome. -/
theorem C105_migrator_same (debug : Bool) (fp : FloatParse) (up down : MigKey → Str) (ms : List MigList)
    (target : Option Version) (v : Version) (s : MigWire) (hs : UsualStream s.conn) :
    Narrow.migratorOpen debug fp ms s.conn = migratorOpen debug fp ms s.conn ∧
    (Narrow.wired up down).upToVersion target ms s = (wired up down).upToVersion target ms s ∧
    (Narrow.wired up down).downToVersion v ms s = (wired up down).downToVersion v ms s ∧
    (Narrow.wired up down).toVersion v ms s = (wired up down).toVersion v ms s ∧
    (Narrow.wired up down).oneDown ms s = (wired up down).oneDown ms s := by
  have hR := Narrow.stepwise_exact (ε := Error) (fun s : MigWire => UsualStream s.conn)
  have ha : (Narrow.wired up down).applied = (wired up down).applied := rfl
  have hs' : (Narrow.wired up down).setApplied = (wired up down).setApplied := rfl
  have he := Narrow.effect_exact up down
  have hI : ∀ a s, UsualStream (MigWire.conn s) → UsualStream ((wired up down).setApplied a s).conn := fun _ _ h => h
  exact ⟨Narrow.open_exact debug fp ms s.conn hs, (Narrow.upTo_rel hR ha hs' hI he target ms).1 s hs,
    (Narrow.downTo_rel hR ha hs' hI he v ms).1 s hs, (Narrow.toVersion_rel hR ha hs' hI he v ms).1 s hs,
    (Narrow.oneDown_rel hR ha hs' hI he ms).1 s hs⟩

/-! ### cases -/

namespace C105mig

/-- what the server of `C69ex` sends to a migrator that is opened, with the rows of the table as they are changed. -/
def packets (row : Bytes → Bytes) : List Bytes :=
  match C69ex.S0.react C69ex.st0 (cmdOf selectSql) with
  | some (_, ps) => ps.take 5 ++ (ps.drop 5).map fun p => if p.head? = some 0xFE then p else row p
  | none => []

def sent (row : Bytes → Bytes) : Bytes :=
  match C69ex.S0.react C69ex.st0 (cmdOf existsSql) with
  | some (_, ps) => Spec.framesAll 1 ps ++ Spec.framesAll 1 (packets row)
  | none => []

/-- the length of the last cell, one byte in size, as 2^32 + 1. -/
def widen (p : Bytes) : Bytes := p.take (p.length - 2) ++ [0xFE, 1, 0, 0, 0, 1, 0, 0, 0] ++ p.drop (p.length - 1)

def known (x : Out Error (Version → List Str) × Conn) : Out Error (List Bool) :=
  x.1.map' fun a => (Spec.declared C69ex.ms).map fun k => decide (Spec.Applied a k)

end C105mig

open C105mig in
/-- the migrator is opened on both, with the migration of the table. -/
example : known (migratorOpen true C69ex.noFloat C69ex.ms (exConn (sent id))) = .ok [true, false, false] ∧
    known (Narrow.migratorOpen true C69ex.noFloat C69ex.ms (exConn (sent id))) = .ok [true, false, false] := by
  refine ⟨?_, ?_⟩ <;> decide +kernel

open C105mig in
/-- **C105** is false of malformed rows: a name that claims 2^32 + 1 bytes, and has one, is refused with 64 bits; with 32 bits
the migrator takes the migration for applied. -/
theorem C105_open_violated :
    known (migratorOpen true C69ex.noFloat C69ex.ms (exConn (sent widen))) = .err (.protocol .eof) ∧
    known (Narrow.migratorOpen true C69ex.noFloat C69ex.ms (exConn (sent widen))) = .ok [true, false, false] := by
  refine ⟨?_, ?_⟩ <;> decide +kernel

/-- a row with the key 41 assigned by the server. -/
example : (Narrow.insert C52.map (exConn (Spec.framesAll 1 [[0, 7, 0, 0, 0, 0, 0, 1, 0, 0, 0, 0], [1]] ++
      Spec.frames 1 [0, 1, 41, 2, 0, 0, 0]))).1 = .ok 41 ∧
    (C52.map.insert (exConn (Spec.framesAll 1 [[0, 7, 0, 0, 0, 0, 0, 1, 0, 0, 0, 0], [1]] ++
      Spec.frames 1 [0, 1, 41, 2, 0, 0, 0]))).1 = .ok 41 := by
  refine ⟨?_, ?_⟩ <;> decide +kernel

/-- three migrations of which the record of the third is refused: the same statements are sent. -/
example : ((Narrow.wired C68ex.upOf C68ex.downOf).up C68ex.ms
      (C68ex.start [C68ex.okBytes, C68ex.okBytes, C68ex.okBytes, C68ex.errBytes])).2.conn.tx = C68ex.run.2.conn.tx ∧
    C68ex.run.2.conn.tx.length = 236 := by
  refine ⟨?_, ?_⟩ <;> decide +kernel

end Verif

import Verif.Proofs.MigServer

/-! # Lemmas: reading the statements of the migrator, and what they do together -/

namespace Verif

open Spec (MigServer MigStore MigCmd SqlError)
open Spec.MigServer (execute executeAll applyAll revertAll tookEffect undone)

theorem readMig_insert (a b c : Nat) (n : Str) :
    Spec.readMig (Spec.insertToks a b c n) = some (.insert a b c n) := by
  unfold Spec.readMig
  rw [if_neg, if_neg, if_neg]
  · have h1 : (Spec.insertToks a b c n).filterMap Spec.numOf = [a, b, c] := rfl
    have h2 : (Spec.insertToks a b c n).filterMap Spec.strOf = [n] := rfl
    rw [h1, h2]
    dsimp only
    rw [if_pos rfl]
  all_goals
    intro h
    have := congrArg List.head? h
    revert this
    unfold Spec.insertToks
    first | unfold Spec.existsToks | unfold Spec.createToks | unfold Spec.selectToks
    simp

theorem readMig_delete (a b c : Nat) (n : Str) :
    Spec.readMig (Spec.deleteToks a b c n) = some (.delete a b c n) := by
  unfold Spec.readMig
  rw [if_neg, if_neg, if_neg]
  · have h1 : (Spec.deleteToks a b c n).filterMap Spec.numOf = [a, b, c] := rfl
    have h2 : (Spec.deleteToks a b c n).filterMap Spec.strOf = [n] := rfl
    rw [h1, h2]
    dsimp only
    rw [if_neg, if_pos rfl]
    intro h
    have := congrArg List.head? h
    revert this
    unfold Spec.insertToks Spec.deleteToks
    simp
  all_goals
    intro h
    have := congrArg List.head? h
    revert this
    unfold Spec.deleteToks
    first | unfold Spec.existsToks | unfold Spec.createToks | unfold Spec.selectToks
    simp

theorem reads_exists : (Spec.tokens existsSql).bind Spec.readMig = some .tableExists := by decide +kernel
theorem reads_create : (Spec.tokens createSql).bind Spec.readMig = some .create := by decide +kernel
theorem reads_select : (Spec.tokens selectSql).bind Spec.readMig = some .select := by decide +kernel

/-- a name that can be written between quotes. -/
def Plain (k : MigKey) : Prop := '"' ∉ k.2 ∧ '\\' ∉ k.2

theorem reads_insert {k : MigKey} (h : Plain k) : (Spec.tokens (insertSql k)).bind Spec.readMig =
    some (.insert k.1.major.toNat k.1.minor.toNat k.1.patch.toNat k.2) := by
  rw [C49_insert_partial k h.1 h.2, Option.bind_some, readMig_insert]

theorem reads_delete {k : MigKey} (h : Plain k) : (Spec.tokens (deleteSql k)).bind Spec.readMig =
    some (.delete k.1.major.toNat k.1.minor.toNat k.1.patch.toNat k.2) := by
  rw [C49_delete_partial k h.1 h.2, Option.bind_some, readMig_delete]

/-- a statement that is not about `migrations`. -/
def Foreign (sql : Str) : Prop := (Spec.tokens sql).bind Spec.readMig = none

theorem isExec_foreign {sql : Str} (h : Foreign sql) : IsExec sql := by
  unfold Foreign at h
  exact ⟨by rw [h]; simp, by rw [h]; simp⟩

theorem isExec_insert {k : MigKey} (h : Plain k) : IsExec (insertSql k) :=
  ⟨by rw [reads_insert h]; simp, by rw [reads_insert h]; simp⟩

theorem isExec_delete {k : MigKey} (h : Plain k) : IsExec (deleteSql k) :=
  ⟨by rw [reads_delete h]; simp, by rw [reads_delete h]; simp⟩

theorem isExec_create : IsExec createSql :=
  ⟨by rw [reads_create]; simp, by rw [reads_create]; simp⟩

variable {W : Type} (S : MigServer W)

theorem execute_foreign {sql : Str} (h : Foreign sql) (st : MigStore W) : S.execute st sql =
    match S.foreign st.world sql with
    | .ok w => .ok ({ st with world := w }, 0)
    | .error e => .error e := by
  unfold execute
  rw [show (Spec.tokens sql).bind Spec.readMig = none from h]
  rfl

theorem execute_insert {k : MigKey} (h : Plain k) (w : W) (rows : List MigKey) :
    S.execute ⟨some rows, w⟩ (insertSql k) =
    match S.inserted w rows k.1.major.toNat k.1.minor.toNat k.1.patch.toNat k.2 with
    | .ok rows' => .ok (⟨some rows', w⟩, 1)
    | .error e => .error e := by
  unfold execute
  rw [reads_insert h]
  rfl

theorem execute_delete {k : MigKey} (h : Plain k) (w : W) (rows : List MigKey) :
    S.execute ⟨some rows, w⟩ (deleteSql k) =
    .ok (⟨some (rows.filter fun j => !S.clash j k), w⟩,
      rows.length - (rows.filter fun j => !S.clash j k).length) := by
  unfold execute
  rw [reads_delete h]
  dsimp only
  have : S.deleted rows k.1.major.toNat k.1.minor.toNat k.1.patch.toNat k.2 =
      rows.filter fun j => !S.clash j k := by
    unfold Spec.MigServer.deleted Spec.MigServer.clash
    refine List.filter_congr fun j _ => ?_
    congr 2
    obtain ⟨⟨a, b, c⟩, n⟩ := j
    obtain ⟨⟨a', b', c'⟩, n'⟩ := k
    simp only [Version.mk.injEq, UInt16.toNat_inj, Bool.decide_and, Bool.and_assoc]
  rw [this]

/-- migrating up is what the statements do together. -/
theorem executeAll_up (upSql : MigKey → Str) (ks : List MigKey) (hf : ∀ k ∈ ks, Foreign (upSql k))
    (hp : ∀ k ∈ ks, Plain k) (w : W) (rows : List MigKey) :
    let x := S.executeAll ⟨some rows, w⟩ (Spec.upStatements upSql ks)
    let y := S.applyAll upSql w rows ks
    x.1 = ⟨some y.2.1, y.1⟩ ∧ x.2.2 = y.2.2 ∧
    ackedKeys S upSql insertSql ⟨some rows, w⟩ ks = S.tookEffect upSql w rows ks := by
  induction ks generalizing w rows with
  | nil => exact ⟨rfl, rfl, rfl⟩
  | cons k ks ih =>
    rw [show Spec.upStatements upSql (k :: ks) = upSql k :: insertSql k :: Spec.upStatements upSql ks from rfl]
    dsimp only
    rw [executeAll, applyAll, ackedKeys, tookEffect, execute_foreign S (hf k (List.mem_cons_self ..))]
    dsimp only
    match S.foreign w (upSql k) with
    | .error e => exact ⟨rfl, rfl, rfl⟩
    | .ok w' =>
      dsimp only
      rw [executeAll, execute_insert S (hp k (List.mem_cons_self ..))]
      match S.inserted w' rows k.1.major.toNat k.1.minor.toNat k.1.patch.toNat k.2 with
      | .error e => exact ⟨rfl, rfl, rfl⟩
      | .ok rows' =>
        obtain ⟨i1, i2, i3⟩ := ih (fun j hj => hf j (List.mem_cons_of_mem _ hj))
          (fun j hj => hp j (List.mem_cons_of_mem _ hj)) w' rows'
        exact ⟨i1, i2, congrArg (k :: ·) i3⟩

theorem executeAll_down (downSql : MigKey → Str) (ks : List MigKey) (hf : ∀ k ∈ ks, Foreign (downSql k))
    (hp : ∀ k ∈ ks, Plain k) (w : W) (rows : List MigKey) :
    let x := S.executeAll ⟨some rows, w⟩ (Spec.downStatements downSql ks)
    let y := S.revertAll downSql w rows ks
    x.1 = ⟨some y.2.1, y.1⟩ ∧ x.2.2 = y.2.2 ∧
    ackedKeys S downSql deleteSql ⟨some rows, w⟩ ks = S.undone downSql w ks := by
  induction ks generalizing w rows with
  | nil => exact ⟨rfl, rfl, rfl⟩
  | cons k ks ih =>
    rw [show Spec.downStatements downSql (k :: ks) =
      downSql k :: deleteSql k :: Spec.downStatements downSql ks from rfl]
    dsimp only
    rw [executeAll, revertAll, ackedKeys, undone, execute_foreign S (hf k (List.mem_cons_self ..))]
    dsimp only
    match S.foreign w (downSql k) with
    | .error e => exact ⟨rfl, rfl, rfl⟩
    | .ok w' =>
      dsimp only
      rw [executeAll, execute_delete S (hp k (List.mem_cons_self ..))]
      obtain ⟨i1, i2, i3⟩ := ih (fun j hj => hf j (List.mem_cons_of_mem _ hj))
        (fun j hj => hp j (List.mem_cons_of_mem _ hj)) w' (rows.filter fun j => !S.clash j k)
      exact ⟨i1, i2, congrArg (k :: ·) i3⟩

end Verif

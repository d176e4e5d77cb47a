import Verif.Spec.MigrateWire
import Verif.Proofs.Migrator

/-! # Lemmas: the migrator on a connection -/

namespace Verif

open Spec (execAll Applied)

theorem execAll_cons (sql : Str) (sqls : List Str) (c : Conn) : execAll (sql :: sqls) c =
    match executeQuery sql c with
    | (.ok _, c1) => execAll sqls c1
    | (.err e, c1) => (.err e, c1)
    | (.panic, c1) => (.panic, c1) := by
  rw [execAll, SM.bind_apply]
  cases executeQuery sql c with
  | mk r c1 => cases r <;> rfl

theorem execAll_append (a b : List Str) : execAll (a ++ b) = (execAll a >>= fun _ => execAll b) := by
  induction a with
  | nil => rfl
  | cons x a ih => rw [List.cons_append, execAll, execAll, ih, sm_assoc]

theorem execAll_append_ok {a : List Str} {c c1 : Conn} (b : List Str) (h : execAll a c = (.ok (), c1)) :
    execAll (a ++ b) c = execAll b c1 := by
  rw [execAll_append, SM.bind_of_ok h]

theorem execAll_prefix_ok {a b : List Str} {c c2 : Conn} (h : execAll (a ++ b) c = (.ok (), c2)) :
    ∃ c1, execAll a c = (.ok (), c1) := by
  rw [execAll_append] at h
  obtain ⟨_, c1, h1, _⟩ := SM.bind_eq_ok.1 h
  exact ⟨c1, h1⟩

theorem execAll_stop {a : List Str} {c : Conn} (b : List Str) (h : (execAll a c).1 ≠ .ok ()) :
    execAll (a ++ b) c = execAll a c := by
  rw [execAll_append, SM.bind_apply]
  match hr : execAll a c with
  | (.ok (), c1) => rw [hr] at h; exact absurd rfl h
  | (.err e, c1) => rfl
  | (.panic, c1) => rfl

theorem getApplied_none' {a : Version → List Str} {k : MigKey} :
    getApplied a k = none ↔ ¬ Applied a k := by
  unfold getApplied Applied
  rw [List.findIdx?_eq_none_iff]
  constructor
  · intro h hm
    have := h k.2 hm
    simp at this
  · intro h x hx
    simp
    intro hh
    exact h (hh ▸ hx)

theorem applied_insert (a : Version → List Str) (k j : MigKey) :
    Applied (insertApplied a k) j ↔ Applied a j ∨ j = k := by
  obtain ⟨v, n⟩ := k
  obtain ⟨w, m⟩ := j
  unfold Applied insertApplied
  by_cases h : w = v
  · simp [h]
  · simp [h]

variable (upSql downSql : MigKey → Str)

/-- applying one migration. -/
theorem upOne_wired {s : MigWire} {k : MigKey} (h : ¬ Applied s.applied k) :
    (wired upSql downSql).upOne k s =
      match executeQuery (upSql k) s.conn with
      | (.ok _, c1) => ((execAll [insertSql k] c1).1,
          { conn := (execAll [insertSql k] c1).2, applied := insertApplied s.applied k })
      | (.err e, c1) => (.err e, { s with conn := c1 })
      | (.panic, c1) => (.panic, { s with conn := c1 }) := by
  have hg := getApplied_none'.2 h
  unfold MigEnv.upOne
  rw [SM.get_bind_apply]
  have : (wired upSql downSql).applied s = s.applied := rfl
  rw [this, hg]
  dsimp only
  rw [SM.bind_apply]
  simp only [wired, onConn]
  rw [SM.bind_apply]
  match executeQuery (upSql k) s.conn with
  | (.ok x, c1) =>
    dsimp only
    rw [execAll_cons]
    show (onConn _ : SM MigWire Error Unit) _ = _
    unfold onConn
    dsimp only
    rw [SM.bind_apply]
    cases executeQuery (insertSql k) c1 with
    | mk r c2 => cases r <;> rfl
  | (.err e, c1) => rfl
  | (.panic, c1) => rfl

theorem upOne_wired_skip {s : MigWire} {k : MigKey} (h : Applied s.applied k) :
    (wired upSql downSql).upOne k s = (.ok (), s) := by
  unfold MigEnv.upOne
  rw [SM.get_bind_apply]
  have : (wired upSql downSql).applied s = s.applied := rfl
  rw [this]
  match hg : getApplied s.applied k with
  | some _ => rfl
  | none => exact absurd h (getApplied_none'.1 hg)

/-- no name twice in the migrator's view. -/
def Tidy (a : Version → List Str) : Prop := ∀ v, (a v).Nodup

theorem tidy_insert {a : Version → List Str} {k : MigKey} (h : Tidy a) (hk : ¬ Applied a k) :
    Tidy (insertApplied a k) := by
  intro v
  unfold insertApplied
  split
  · rename_i hv
    rw [hv, List.nodup_append]
    refine ⟨h k.1, (List.pairwise_singleton _ _), fun x hx y hy hxy => hk ?_⟩
    rw [List.mem_singleton] at hy
    unfold Applied
    rw [← hy, ← hxy]
    exact hx
  · exact h v

/-- the view a `down` leaves. -/
def without (a : Version → List Str) (k : MigKey) : Version → List Str :=
  match getApplied a k with
  | some i => fun v => if v = k.1 then swapRemove (a v) i else a v
  | none => a

theorem without_spec {a : Version → List Str} {k : MigKey} (h : Tidy a) :
    Tidy (without a k) ∧ ∀ j, Applied (without a k) j ↔ Applied a j ∧ j ≠ k := by
  unfold without
  match hg : getApplied a k with
  | none =>
    refine ⟨h, fun j => ⟨fun hj => ⟨hj, ?_⟩, fun hj => hj.1⟩⟩
    rintro rfl
    exact getApplied_none'.1 hg hj
  | some i =>
    exact removed_swap (s := ⟨[], [], [], [], a⟩) (k := k) (i := i) h hg

/-- reverting one migration. -/
theorem downAt_wired {s : MigWire} {k : MigKey} {i : Nat} (h : getApplied s.applied k = some i) :
    (wired upSql downSql).downAt k i s =
      match executeQuery (downSql k) s.conn with
      | (.ok _, c1) => ((execAll [deleteSql k] c1).1,
          { conn := (execAll [deleteSql k] c1).2, applied := without s.applied k })
      | (.err e, c1) => (.err e, { s with conn := c1 })
      | (.panic, c1) => (.panic, { s with conn := c1 }) := by
  unfold MigEnv.downAt without
  rw [h, SM.bind_apply]
  simp only [wired, onConn]
  rw [SM.bind_apply]
  match executeQuery (downSql k) s.conn with
  | (.ok x, c1) =>
    dsimp only
    rw [execAll_cons]
    show (onConn _ : SM MigWire Error Unit) _ = _
    unfold onConn
    dsimp only
    rw [SM.bind_apply]
    cases executeQuery (deleteSql k) c1 with
    | mk r c2 => cases r <;> rfl
  | (.err e, c1) => rfl
  | (.panic, c1) => rfl

theorem downOne_wired {s : MigWire} {k : MigKey} (h : Applied s.applied k) :
    (wired upSql downSql).downOne k s =
      match executeQuery (downSql k) s.conn with
      | (.ok _, c1) => ((execAll [deleteSql k] c1).1,
          { conn := (execAll [deleteSql k] c1).2, applied := without s.applied k })
      | (.err e, c1) => (.err e, { s with conn := c1 })
      | (.panic, c1) => (.panic, { s with conn := c1 }) := by
  unfold MigEnv.downOne
  rw [SM.get_bind_apply]
  have : (wired upSql downSql).applied s = s.applied := rfl
  rw [this]
  match hg : getApplied s.applied k with
  | none => exact absurd h (getApplied_none'.1 hg)
  | some i => exact downAt_wired upSql downSql hg

theorem downOne_wired_skip {s : MigWire} {k : MigKey} (h : ¬ Applied s.applied k) :
    (wired upSql downSql).downOne k s = (.ok (), s) := by
  unfold MigEnv.downOne
  rw [SM.get_bind_apply]
  have : (wired upSql downSql).applied s = s.applied := rfl
  rw [this, getApplied_none'.2 h]
  rfl

/-! ### pairs of statements -/

/-- the first statement of the `i`-th pair was answered with OK. -/
def Acked (f g : MigKey → Str) (ks : List MigKey) (c : Conn) (k : MigKey) : Prop :=
  ∃ i, ks[i]? = some k ∧ (execAll ((ks.flatMap fun k => [f k, g k]).take (2 * i + 1)) c).1 = .ok ()

theorem acked_nil {f g : MigKey → Str} {c : Conn} {k : MigKey} : ¬ Acked f g [] c k := by
  rintro ⟨i, h, _⟩
  simp at h

theorem acked_cons_ok {f g : MigKey → Str} {k : MigKey} {ks : List MigKey} {c c1 c2 : Conn} {x y : OkPacket}
    (h1 : executeQuery (f k) c = (.ok x, c1)) (h2 : executeQuery (g k) c1 = (.ok y, c2)) (j : MigKey) :
    Acked f g (k :: ks) c j ↔ j = k ∨ Acked f g ks c2 j := by
  have hs : ∀ i, execAll (((k :: ks).flatMap fun k => [f k, g k]).take (2 * (i + 1) + 1)) c =
      execAll ((ks.flatMap fun k => [f k, g k]).take (2 * i + 1)) c2 := by
    intro i
    rw [List.flatMap_cons, show 2 * (i + 1) + 1 = (2 * i + 1) + 1 + 1 by omega]
    show execAll (f k :: g k :: _) c = _
    rw [execAll_cons, h1]
    dsimp only
    rw [execAll_cons, h2]
    rfl
  constructor
  · rintro ⟨i, hi, ho⟩
    cases i with
    | zero => left; simpa using hi.symm
    | succ i =>
      right
      rw [hs] at ho
      exact ⟨i, by simpa using hi, ho⟩
  · rintro (rfl | ⟨i, hi, ho⟩)
    · refine ⟨0, rfl, ?_⟩
      show (execAll [f j] c).1 = _
      rw [execAll_cons, h1]
      rfl
    · exact ⟨i + 1, by simpa using hi, by rw [hs]; exact ho⟩

theorem acked_cons_half {f g : MigKey → Str} {k : MigKey} {ks : List MigKey} {c c1 : Conn} {x : OkPacket}
    (h1 : executeQuery (f k) c = (.ok x, c1)) (h2 : (execAll [g k] c1).1 ≠ .ok ()) (j : MigKey) :
    Acked f g (k :: ks) c j ↔ j = k := by
  constructor
  · rintro ⟨i, hi, ho⟩
    cases i with
    | zero => simpa using hi.symm
    | succ i =>
      exfalso
      rw [List.flatMap_cons, show 2 * (i + 1) + 1 = (2 * i + 1) + 1 + 1 by omega] at ho
      have : (execAll (f k :: ([g k] ++ (ks.flatMap fun k => [f k, g k]).take (2 * i + 1))) c).1 = .ok () := ho
      rw [execAll_cons, h1] at this
      dsimp only at this
      rw [execAll_stop _ h2] at this
      exact h2 this
  · rintro rfl
    refine ⟨0, rfl, ?_⟩
    show (execAll [f j] c).1 = _
    rw [execAll_cons, h1]
    rfl

theorem acked_cons_none {f g : MigKey → Str} {k : MigKey} {ks : List MigKey} {c : Conn}
    (h1 : (execAll [f k] c).1 ≠ .ok ()) (j : MigKey) : ¬ Acked f g (k :: ks) c j := by
  rintro ⟨i, hi, ho⟩
  rw [List.flatMap_cons] at ho
  have : (execAll ([f k] ++ ([g k] ++ (ks.flatMap fun k => [f k, g k])).take (2 * i)) c).1 = .ok () := ho
  rw [execAll_stop _ h1] at this
  exact h1 this

/-! ### all of them -/

theorem upKeys_wired (ks : List MigKey) (hn : ks.Nodup) (s : MigWire) :
    let w := (wired upSql downSql).upKeys ks s
    let todo := ks.filter fun k => !decide (Applied s.applied k)
    w.1 = (execAll (Spec.upStatements upSql todo) s.conn).1 ∧
    w.2.conn = (execAll (Spec.upStatements upSql todo) s.conn).2 ∧
    (∀ j, Applied w.2.applied j ↔ Applied s.applied j ∨ Acked upSql insertSql todo s.conn j) ∧
    (Tidy s.applied → Tidy w.2.applied) := by
  induction ks generalizing s with
  | nil =>
    exact ⟨rfl, rfl, fun j => ⟨.inl, fun h => h.elim id fun h => absurd h acked_nil⟩, id⟩
  | cons k ks ih =>
    rw [List.nodup_cons] at hn
    intro w todo
    by_cases hk : Applied s.applied k
    · have ht : todo = ks.filter fun k => !decide (Applied s.applied k) := by
        show List.filter _ _ = _
        rw [List.filter_cons_of_neg (by simp [hk])]
      have hw : w = (wired upSql downSql).upKeys ks s := by
        show (_ >>= _ : SM MigWire Error Unit) s = _
        rw [SM.bind_of_ok (upOne_wired_skip upSql downSql hk)]
      rw [hw, ht]
      exact ih hn.2 s
    · have ht : todo = k :: ks.filter fun k => !decide (Applied s.applied k) := by
        show List.filter _ _ = _
        rw [List.filter_cons_of_pos (by simp [hk])]
      have hw : w = ((wired upSql downSql).upOne k >>= fun _ => (wired upSql downSql).upKeys ks) s := rfl
      have ho := upOne_wired upSql downSql hk
      clear_value w todo
      subst ht
      rw [SM.bind_apply] at hw
      have hst : Spec.upStatements upSql (k :: ks.filter fun k => !decide (Applied s.applied k)) =
        upSql k :: ([insertSql k] ++ Spec.upStatements upSql (ks.filter fun k => !decide (Applied s.applied k))) := rfl
      rw [hst]
      match h1 : executeQuery (upSql k) s.conn with
      | (.err e, c1) =>
        rw [h1] at ho
        rw [ho] at hw
        subst hw
        rw [execAll_cons, h1]
        have hx : (execAll [upSql k] s.conn).1 ≠ .ok () := by
          rw [execAll_cons, h1]; exact fun h => by cases h
        exact ⟨rfl, rfl, fun j => ⟨.inl, fun h => h.elim id fun h => absurd h (acked_cons_none hx j)⟩, id⟩
      | (.panic, c1) =>
        rw [h1] at ho
        rw [ho] at hw
        subst hw
        rw [execAll_cons, h1]
        have hx : (execAll [upSql k] s.conn).1 ≠ .ok () := by
          rw [execAll_cons, h1]; exact fun h => by cases h
        exact ⟨rfl, rfl, fun j => ⟨.inl, fun h => h.elim id fun h => absurd h (acked_cons_none hx j)⟩, id⟩
      | (.ok x, c1) =>
        rw [h1] at ho
        dsimp only at ho
        rw [execAll_cons, h1]
        dsimp only
        have hsplit := fun hx => execAll_stop (a := [insertSql k]) (c := c1)
          (Spec.upStatements upSql (ks.filter fun k => !decide (Applied s.applied k))) hx
        match h2 : executeQuery (insertSql k) c1 with
        | (.ok y, c2) =>
          have h3 : execAll [insertSql k] c1 = (.ok (), c2) := by rw [execAll_cons, h2]; rfl
          rw [h3] at ho
          rw [ho] at hw
          dsimp only at hw
          rw [execAll_append_ok _ h3]
          have hf : (ks.filter fun k => !decide (Applied s.applied k)) =
              ks.filter fun j => !decide (Applied (insertApplied s.applied k) j) := by
            refine List.filter_congr fun j hj => ?_
            have : j ≠ k := fun h => hn.1 (h ▸ hj)
            simp [applied_insert, this]
          obtain ⟨i1, i2, i3, i4⟩ := ih hn.2 { conn := c2, applied := insertApplied s.applied k }
          rw [← hw] at i1 i2 i3 i4
          dsimp only at i1 i2 i3 i4
          rw [← hf] at i1 i2 i3
          refine ⟨i1, i2, fun j => ?_, fun h => i4 (tidy_insert h hk)⟩
          rw [i3, applied_insert, acked_cons_ok h1 h2, or_assoc]
        | (.err e, c2) =>
          have h3 : execAll [insertSql k] c1 = (.err e, c2) := by rw [execAll_cons, h2]
          have hx : (execAll [insertSql k] c1).1 ≠ .ok () := by rw [h3]; exact fun h => by cases h
          rw [hsplit hx]
          rw [ho, h3] at hw
          subst hw
          rw [h3]
          refine ⟨rfl, rfl, fun j => ?_, fun h => tidy_insert h hk⟩
          show Applied (insertApplied s.applied k) j ↔ _
          rw [applied_insert, acked_cons_half h1 hx]
        | (.panic, c2) =>
          have h3 : execAll [insertSql k] c1 = (.panic, c2) := by rw [execAll_cons, h2]
          have hx : (execAll [insertSql k] c1).1 ≠ .ok () := by rw [h3]; exact fun h => by cases h
          rw [hsplit hx]
          rw [ho, h3] at hw
          subst hw
          rw [h3]
          refine ⟨rfl, rfl, fun j => ?_, fun h => tidy_insert h hk⟩
          show Applied (insertApplied s.applied k) j ↔ _
          rw [applied_insert, acked_cons_half h1 hx]

theorem downKeys_wired (ks : List MigKey) (hn : ks.Nodup) (s : MigWire) (hd : Tidy s.applied) :
    let w := (wired upSql downSql).downKeys ks s
    let todo := ks.filter fun k => decide (Applied s.applied k)
    w.1 = (execAll (Spec.downStatements downSql todo) s.conn).1 ∧
    w.2.conn = (execAll (Spec.downStatements downSql todo) s.conn).2 ∧
    (∀ j, Applied w.2.applied j ↔ Applied s.applied j ∧ ¬ Acked downSql deleteSql todo s.conn j) ∧
    Tidy w.2.applied := by
  induction ks generalizing s with
  | nil =>
    exact ⟨rfl, rfl, fun j => ⟨fun h => ⟨h, acked_nil⟩, fun h => h.1⟩, hd⟩
  | cons k ks ih =>
    rw [List.nodup_cons] at hn
    intro w todo
    by_cases hk : ¬ Applied s.applied k
    · have ht : todo = ks.filter fun k => decide (Applied s.applied k) := by
        show List.filter _ _ = _
        rw [List.filter_cons_of_neg (by simp [hk])]
      have hw : w = (wired upSql downSql).downKeys ks s := by
        show (_ >>= _ : SM MigWire Error Unit) s = _
        rw [SM.bind_of_ok (downOne_wired_skip upSql downSql hk)]
      rw [hw, ht]
      exact ih hn.2 s hd
    · have hk := Classical.not_not.1 hk
      have ht : todo = k :: ks.filter fun k => decide (Applied s.applied k) := by
        show List.filter _ _ = _
        rw [List.filter_cons_of_pos (by simp [hk])]
      have hw : w = ((wired upSql downSql).downOne k >>= fun _ => (wired upSql downSql).downKeys ks) s := rfl
      have ho := downOne_wired upSql downSql hk
      obtain ⟨hd', hwo⟩ := without_spec (k := k) hd
      clear_value w todo
      subst ht
      rw [SM.bind_apply] at hw
      have hst : Spec.downStatements downSql (k :: ks.filter fun k => decide (Applied s.applied k)) =
        downSql k :: ([deleteSql k] ++ Spec.downStatements downSql (ks.filter fun k => decide (Applied s.applied k))) := rfl
      rw [hst]
      match h1 : executeQuery (downSql k) s.conn with
      | (.err e, c1) =>
        rw [h1] at ho
        rw [ho] at hw
        subst hw
        rw [execAll_cons, h1]
        have hx : (execAll [downSql k] s.conn).1 ≠ .ok () := by
          rw [execAll_cons, h1]; exact fun h => by cases h
        exact ⟨rfl, rfl, fun j => ⟨fun h => ⟨h, acked_cons_none hx j⟩, fun h => h.1⟩, hd⟩
      | (.panic, c1) =>
        rw [h1] at ho
        rw [ho] at hw
        subst hw
        rw [execAll_cons, h1]
        have hx : (execAll [downSql k] s.conn).1 ≠ .ok () := by
          rw [execAll_cons, h1]; exact fun h => by cases h
        exact ⟨rfl, rfl, fun j => ⟨fun h => ⟨h, acked_cons_none hx j⟩, fun h => h.1⟩, hd⟩
      | (.ok x, c1) =>
        rw [h1] at ho
        dsimp only at ho
        rw [execAll_cons, h1]
        dsimp only
        have hsplit := fun hx => execAll_stop (a := [deleteSql k]) (c := c1)
          (Spec.downStatements downSql (ks.filter fun k => decide (Applied s.applied k))) hx
        match h2 : executeQuery (deleteSql k) c1 with
        | (.ok y, c2) =>
          have h3 : execAll [deleteSql k] c1 = (.ok (), c2) := by rw [execAll_cons, h2]; rfl
          rw [h3] at ho
          rw [ho] at hw
          dsimp only at hw
          rw [execAll_append_ok _ h3]
          have hf : (ks.filter fun k => decide (Applied s.applied k)) =
              ks.filter fun j => decide (Applied (without s.applied k) j) := by
            refine List.filter_congr fun j hj => ?_
            have : j ≠ k := fun h => hn.1 (h ▸ hj)
            simp [hwo, this]
          obtain ⟨i1, i2, i3, i4⟩ := ih hn.2 { conn := c2, applied := without s.applied k } hd'
          rw [← hw] at i1 i2 i3 i4
          dsimp only at i1 i2 i3
          rw [← hf] at i1 i2 i3
          refine ⟨i1, i2, fun j => ?_, i4⟩
          rw [i3, hwo, acked_cons_ok h1 h2, not_or, and_assoc]
        | (.err e, c2) =>
          have h3 : execAll [deleteSql k] c1 = (.err e, c2) := by rw [execAll_cons, h2]
          have hx : (execAll [deleteSql k] c1).1 ≠ .ok () := by rw [h3]; exact fun h => by cases h
          rw [hsplit hx]
          rw [ho, h3] at hw
          subst hw
          rw [h3]
          refine ⟨rfl, rfl, fun j => ?_, hd'⟩
          show Applied (without s.applied k) j ↔ _
          rw [hwo, acked_cons_half h1 hx]
        | (.panic, c2) =>
          have h3 : execAll [deleteSql k] c1 = (.panic, c2) := by rw [execAll_cons, h2]
          have hx : (execAll [deleteSql k] c1).1 ≠ .ok () := by rw [h3]; exact fun h => by cases h
          rw [hsplit hx]
          rw [ho, h3] at hw
          subst hw
          rw [h3]
          refine ⟨rfl, rfl, fun j => ?_, hd'⟩
          show Applied (without s.applied k) j ↔ _
          rw [hwo, acked_cons_half h1 hx]

end Verif

import Verif.Proofs.Fill

/-! # Lemmas: the migration that fills a column, from beginning to end -/

namespace Verif

open Spec (FillServer FillState FillDb FillStmt SqlError)
open Spec.FillServer (talk react)

attribute [local irreducible] fillAlterSql fillUsersSql fillAddressesSql fillUpdateSql fillDownSql

/-- the rows of the addresses of a user: two are enough to know. -/
theorem found_cases {S : FillServer} (hS : FairFill S) (db : FillDb) (u : UInt32) :
    (Spec.FillServer.theOne db u = none ∧
      ((S.found (Spec.FillServer.addressesOf db u.toNat)).take 2 = [] ∨
        ∃ a b, (S.found (Spec.FillServer.addressesOf db u.toNat)).take 2 = [a, b])) ∨
    ∃ a, Spec.FillServer.theOne db u = some a ∧
      (S.found (Spec.FillServer.addressesOf db u.toNat)).take 2 = [a] := by
  have e : (fun a : UInt32 × UInt32 => decide ((a.2.toNat : Int) = (u.toNat : Int))) = fun a => decide (a.2 = u) := by
    funext a
    rw [decide_eq_decide, Int.ofNat_inj, UInt32.toNat_inj]
  unfold Spec.FillServer.theOne Spec.FillServer.addressesOf
  rw [e]
  generalize db.addresses.filter _ = l
  have hp := hS.found (l.map (·.1))
  generalize S.found (l.map (·.1)) = f at hp
  match l with
  | [] =>
    left
    have := hp.eq_nil
    subst this
    exact ⟨rfl, Or.inl rfl⟩
  | [a] =>
    right
    have := List.perm_singleton.1 hp
    subst this
    exact ⟨a.1, rfl, rfl⟩
  | a :: b :: l =>
    left
    have := hp.length_eq
    match f with
    | [] => simp at this
    | [_] => simp at this
    | x :: y :: f => exact ⟨rfl, Or.inr ⟨x, y, rfl⟩⟩

/-- asking for the addresses of a user, the first one, and the rest if there is one. -/
theorem ask_addresses {i1 : Nat} {S : FillServer} (hS : FairFill S) (st : FillState) (pa : Prepared)
    (hpa : st.prepared i1 pa.id.toNat = some .addresses) (hl : pa.params = 1) (u : UInt32) :
    ∃ m, S.react i1 st m = some (st, Spec.resultSet [S.addressDesc]
        (((S.found (Spec.FillServer.addressesOf st.db u.toNat)).take 2).map Spec.FillServer.binRow)
        S.status.toNat S.warnings.toNat) ∧
      ∀ (c : Conn) (r : List Rx), FillRest S c (rxOf (Spec.framesAll (UInt8.ofNat (Spec.frameCount m))
          (Spec.resultSet [S.addressDesc] (((S.found (Spec.FillServer.addressesOf st.db u.toNat)).take 2).map
            Spec.FillServer.binRow) S.status.toNat S.warnings.toNat)) ++ r) →
        ∃ q, pa.query [.uint u] c = (.ok { columns := [columnOf S.addressDesc .long], okPacket := none },
          Conn.feed { c with tx := c.tx ++ Spec.frames 0 m, pendingResult := true } q
            (((S.found (Spec.FillServer.addressesOf st.db u.toNat)).take 2).map Spec.FillServer.binRow ++
              [Spec.terminator S.status.toNat S.warnings.toNat]) r) := by
  obtain ⟨m, h1, h2, bs, rr, h3, h4⟩ := small_exec pa.id [.uint u]
    (by simp [ExecRequest.totalLen, Value.binLen, MAX_PAYLOAD_LEN]) (by simp)
  refine ⟨m, ?_, fun c r hc => ?_⟩
  · subst h3
    rw [react, if_neg (by decide), if_neg (by decide), if_pos rfl, h4]
    simp only [Option.bind_eq_bind, Option.bind_some]
    rw [hpa]
    dsimp only
    rw [show [Value.uint u].length = 1 from rfl] at h2
    rw [h2]
    rfl
  · unfold Prepared.query
    rw [if_neg (by simp [hl]), SM.bind_of_ok (h1 c hc.pending hc.faults)]
    have hrx := hc.rx
    have hfeed := fill_head hS.address.1 { c with tx := c.tx ++ Spec.frames 0 m }
      (UInt8.ofNat (Spec.frameCount m))
      (((S.found (Spec.FillServer.addressesOf st.db u.toNat)).take 2).map Spec.FillServer.binRow)
      S.status.toNat S.warnings.toNat r
    rw [Conn.feed, ← hrx] at hfeed
    exact ⟨_, hfeed⟩

/-- the answer if there is an address: the first row, then the rest. -/
theorem first_and_rest {i1 : Nat} {S : FillServer} (hS : FairFill S) {pa : Prepared} {u x : UInt32} {xs : List UInt32} {m : Bytes}
    {s : Conns} {r : List Rx} {q : UInt8} {rx : List Rx} (hc : FillRest S (s.conn i1) rx)
    (h : pa.query [.uint u] (s.conn i1) = (.ok { columns := [columnOf S.addressDesc .long], okPacket := none },
          Conn.feed { s.conn i1 with tx := (s.conn i1).tx ++ Spec.frames 0 m, pendingResult := true } q
            ((x :: xs).map Spec.FillServer.binRow ++ [Spec.terminator S.status.toNat S.warnings.toNat]) r)) :
    ∃ rs rs' s1 s2 s3, on i1 (pa.query [.uint u]) s = (.ok rs, s1) ∧
      on i1 (rs.next (binReader mkPlain)) s1 = (.ok (rs, some [.uint x]), s2) ∧
      on i1 (rs.one (binReader mkPlain)) s2 = (.ok (rs', (xs.map fun y => [Value.uint y]).head?), s3) ∧
      s3.log = s.log ++ fillLog [(i1, m)] ∧ (∀ j, j ≠ i1 → s3.conn j = s.conn j) ∧ FillRest S (s3.conn i1) r := by
  have hrows := rows_addresses hS (x :: xs)
  unfold RowsAs at hrows
  rw [List.map_cons, List.map_cons] at hrows
  cases hrows with
  | cons h1 h2 =>
  obtain ⟨g1, vs, g2, g3⟩ := h1
  have k1 := on_cmd h rfl
  rw [List.map_cons, List.cons_append] at k1
  generalize hs1 : s.put i1 _ (fillLog [(i1, m)]) = s1 at k1
  have e1 : s1.conn i1 = Conn.feed { s.conn i1 with tx := (s.conn i1).tx ++ Spec.frames 0 m, pendingResult := true } q
        (Spec.FillServer.binRow x :: (xs.map Spec.FillServer.binRow ++ [Spec.terminator S.status.toNat S.warnings.toNat])) r := by
    rw [← hs1]; exact Conns.put_same ..
  have h4 := next_row (binReader mkPlain) { columns := [columnOf S.addressDesc .long], okPacket := none }
        { s.conn i1 with tx := (s.conn i1).tx ++ Spec.frames 0 m, pendingResult := true } q _
        (xs.map Spec.FillServer.binRow ++ [Spec.terminator S.status.toNat S.warnings.toNat]) r rfl g1 g2 g3
  rw [← e1] at h4
  have k2 := on_read h4 (by rw [e1])
  generalize hs2 : s1.put i1 _ [] = s2 at k2
  have e2 := (congrArg (fun t => Conns.conn t i1) hs2.symm).trans (Conns.put_same ..)
  dsimp only at e2
  obtain ⟨ok, h5⟩ := C12_one (binReader mkPlain) { columns := [columnOf S.addressDesc .long], okPacket := none }
    (s2.conn i1) (xs.map Spec.FillServer.binRow) [] (xs.map fun y => [Value.uint y]) S.status.toNat S.warnings.toNat r rfl h2
    (by rw [e2])
  refine ⟨_, _, _, _, _, k1, k2, on_read h5 rfl, ?_, ?_, ?_⟩
  · rw [← hs2, ← hs1]; simp [Conns.put]
  · intro j hj
    rw [Conns.put_other _ _ _ hj, ← hs2, Conns.put_other _ _ _ hj, ← hs1, Conns.put_other _ _ _ hj]
  · rw [Conns.put_same]
    refine ⟨rfl, ?_, ?_, ?_, by simp [Spec.framesAll, rxOf]⟩
    · dsimp only; rw [e2]; exact hc.faults
    · dsimp only; rw [e2]; exact hc.track
    · dsimp only; rw [e2]; exact hc.p41

theorem idOf_toNat (a : UInt32) : Spec.FillServer.idOf (a.toNat : Int) = some a := by
  have := a.toNat_lt
  unfold Spec.FillServer.idOf
  rw [if_pos (by omega), Int.toNat_natCast, UInt32.ofNat_toNat]

theorem updateWith_ids (S : FillServer) (st : FillState) (p : UInt32 → Option UInt32) (a u : UInt32) :
    S.updateWith st [some (a.toNat : Int), some (u.toNat : Int)] (some p) = some (S.update st p u a) := by
  have ha := idOf_toNat a
  have hu := idOf_toNat u
  generalize (a.toNat : Int) = x at *
  generalize (u.toNat : Int) = y at *
  rw [Spec.FillServer.updateWith, ha, hu]

/-- what the server does about an update. -/
theorem react_update {i2 : Nat} (S : FillServer) (st : FillState) (pu : Prepared) (p : UInt32 → Option UInt32)
    (hpu : st.prepared i2 pu.id.toNat = some .update) (hdb : st.db.primary = some p) (a u : UInt32) :
    ∃ m, (∀ c : Conn, c.pendingResult = false → c.wfaults = [] → sendExecute pu.id [.uint a, .uint u] c = (.ok (), { c with
        tx := c.tx ++ Spec.frames 0 m, seqId := UInt8.ofNat (Spec.frameCount m) })) ∧
      S.react i2 st m = some (S.update st p u a) := by
  obtain ⟨m, g1, g2, bs, rr, g3, g4⟩ := small_exec pu.id [.uint a, .uint u]
    (by simp [ExecRequest.totalLen, Value.binLen, MAX_PAYLOAD_LEN]) (by simp)
  refine ⟨m, g1, ?_⟩
  subst g3
  rw [react, if_neg (by decide), if_neg (by decide), if_pos rfl, g4]
  simp only [Option.bind_eq_bind, Option.bind_some]
  rw [hpu]
  dsimp only
  rw [show [Value.uint a, Value.uint u].length = 2 from rfl] at g2
  rw [g2]
  have hx : ([Value.uint a, Value.uint u].map Spec.meaning).map Spec.FillServer.number =
      [some (a.toNat : Int), some (u.toNat : Int)] := rfl
  rw [Option.bind_some]
  dsimp only
  rw [hx, hdb, updateWith_ids]

/-- one user. -/
theorem user_talk {i1 i2 : Nat} (h12 : i1 ≠ i2) {S : FillServer} (hS : FairFill S) (st : FillState) (pa pu : Prepared) (p : UInt32 → Option UInt32)
    (hpa : st.prepared i1 pa.id.toNat = some .addresses) (hla : pa.params = 1)
    (hpu : st.prepared i2 pu.id.toNat = some .update) (hlu : pu.params = 2) (hdb : st.db.primary = some p) (u : UInt32) :
    ∃ cmds sent e p', S.talk st cmds = some ({ st with db := { st.db with primary := some p' } }, sent) ∧ (∀ j, j ≠ i1 → j ≠ i2 → sent j = []) ∧
      (match Spec.FillServer.theOne st.db u with
        | none => p' = p ∧ e = none
        | some a =>
          match S.refuses st.db u a with
          | some e' => p' = p ∧ e = some e'
          | none => p' = Spec.FillServer.assigned p u a ∧ e = none) ∧
      ∀ (s : Conns) (r : Nat → List Rx), FillRest S (s.conn i1) (rxOf (sent i1) ++ r i1) →
        FillRest S (s.conn i2) (rxOf (sent i2) ++ r i2) →
        ∃ s', fillUser i1 i2 pa pu [.uint u] s = (fillOutcome S e, s') ∧ s'.log = s.log ++ fillLog cmds ∧
          (∀ j, j ≠ i1 → j ≠ i2 → s'.conn j = s.conn j) ∧ FillRest S (s'.conn i1) (r i1) ∧ FillRest S (s'.conn i2) (r i2) := by
  have hst : ({ st with db := { st.db with primary := some p } } : FillState) = st := by
    cases st with | mk db pr => cases db; simp only at hdb; subst hdb; rfl
  obtain ⟨m, hr, hq⟩ := ask_addresses hS st pa hpa hla u
  have htalk := ftalk_one S st st i1 m _ hr
  rcases found_cases hS st.db u with ⟨h1, h2⟩ | ⟨a, h1, h2⟩
  · -- none, or more than one
    rw [h1]
    rcases h2 with h2 | ⟨a, b, h2⟩
    · rw [h2] at htalk hq
      refine ⟨_, _, none, p, by rw [hst]; exact htalk, fun j hj _ => if_neg hj, ⟨rfl, rfl⟩, fun s r hc1 hc2 => ?_⟩
      rw [if_pos rfl] at hc1
      rw [if_neg (by omega), show rxOf ([] : Bytes) = [] from rfl, List.nil_append] at hc2
      obtain ⟨q, h3⟩ := hq _ _ hc1
      unfold fillUser
      rw [SM.bind_of_ok (on_cmd h3 rfl)]
      have h4 := next_term (binReader mkPlain) { columns := [columnOf S.addressDesc .long], okPacket := none }
        { s.conn i1 with tx := (s.conn i1).tx ++ Spec.frames 0 m, pendingResult := true } q S.status.toNat
        S.warnings.toNat [] (r i1) rfl
      rw [List.map_nil, List.nil_append]
      generalize hs1 : s.put i1 (Conn.feed { s.conn i1 with tx := (s.conn i1).tx ++ Spec.frames 0 m, pendingResult := true } q
        [Spec.terminator S.status.toNat S.warnings.toNat] (r i1)) (fillLog [(i1, m)]) = s1
      have e1 : s1.conn i1 = Conn.feed { s.conn i1 with tx := (s.conn i1).tx ++ Spec.frames 0 m, pendingResult := true } q
        [Spec.terminator S.status.toNat S.warnings.toNat] (r i1) := by rw [← hs1]; exact Conns.put_same ..
      rw [← e1] at h4
      rw [SM.bind_of_ok (on_read h4 (by rw [e1]))]
      refine ⟨_, rfl, ?_, ?_, ?_, ?_⟩
      · rw [← hs1]; simp [Conns.put]
      · intro j hj _
        rw [Conns.put_other _ _ _ hj, ← hs1, Conns.put_other _ _ _ hj]
      · rw [Conns.put_same]
        exact ⟨rfl, hc1.faults, hc1.track, hc1.p41, by simp [Spec.framesAll, rxOf]⟩
      · rw [Conns.put_other _ _ _ (by omega), ← hs1, Conns.put_other _ _ _ (by omega)]
        exact hc2
    · rw [h2] at htalk hq
      refine ⟨_, _, none, p, by rw [hst]; exact htalk, fun j hj _ => if_neg hj, ⟨rfl, rfl⟩, fun s r hc1 hc2 => ?_⟩
      rw [if_pos rfl] at hc1
      rw [if_neg (by omega), show rxOf ([] : Bytes) = [] from rfl, List.nil_append] at hc2
      obtain ⟨q, h3⟩ := hq _ _ hc1
      obtain ⟨rs, rs', s1, s2, s3, k1, k2, k3, k4, k5, k7⟩ := first_and_rest hS hc1 h3
      refine ⟨s3, ?_, k4, fun j hj _ => k5 j hj, k7, by rw [k5 i2 (by omega)]; exact hc2⟩
      unfold fillUser
      rw [SM.bind_of_ok k1, SM.bind_of_ok k2]
      dsimp only
      rw [SM.bind_of_ok k3]
      rfl
  · -- exactly one
    rw [h1]
    dsimp only
    rw [h2] at htalk hq
    generalize hps : Spec.resultSet [S.addressDesc] _ _ _ = ps at htalk hq
    obtain ⟨m2, g1, hreact⟩ := react_update S st pu p hpu hdb a u
    cases hrf : S.refuses st.db u a with
    | some e =>
      rw [Spec.FillServer.update, hrf] at hreact
      dsimp only at hreact ⊢
      refine ⟨[(i1, m)] ++ [(i2, m2)],
        fun j => (if j = i1 then Spec.framesAll (UInt8.ofNat (Spec.frameCount m)) ps else []) ++
          (if j = i2 then Spec.framesAll (UInt8.ofNat (Spec.frameCount m2)) [S.errAnswer e] else []),
        some e, p, ?_, fun j hj hk => by simp [hj, hk], ⟨rfl, rfl⟩, ?_⟩
      · rw [hst, ftalk_append, htalk, Option.bind_some, ftalk_one S st _ i2 m2 _ hreact]
        rfl
      · intro s r hc1 hc2
        dsimp only at hc1 hc2
        rw [if_pos rfl, if_neg (by omega), List.append_nil] at hc1
        rw [if_pos rfl, if_neg (by omega), List.nil_append] at hc2
        obtain ⟨q, h3⟩ := hq _ _ hc1
        obtain ⟨rs, rs', s1, s2, s3, k1, k2, k3, k4, k5, k7⟩ := first_and_rest hS hc1 h3
        rw [← k5 i2 (by omega)] at hc2
        obtain ⟨c', k8, k9, k10⟩ := fill_execute_err (hS.update _ _ _ _ hrf) hlu g1 hc2
        refine ⟨s3.put i2 c' (fillLog [(i2, m2)]), ?_, ?_, ?_, ?_, ?_⟩
        · unfold fillUser
          rw [SM.bind_of_ok k1, SM.bind_of_ok k2]
          dsimp only
          rw [SM.bind_of_ok k3]
          dsimp only
          rw [if_pos (by rfl), SM.bind_of_err (on_cmd k8 k9)]
          rfl
        · rw [fillLog_append, ← List.append_assoc, ← k4]; rfl
        · intro j hj hk
          rw [Conns.put_other _ _ _ hk, k5 j hj]
        · rw [Conns.put_other _ _ _ (by omega)]; exact k7
        · rw [Conns.put_same]; exact k10
    | none =>
      rw [Spec.FillServer.update, hrf] at hreact
      dsimp only at hreact ⊢
      refine ⟨[(i1, m)] ++ [(i2, m2)],
        fun j => (if j = i1 then Spec.framesAll (UInt8.ofNat (Spec.frameCount m)) ps else []) ++
          (if j = i2 then Spec.framesAll (UInt8.ofNat (Spec.frameCount m2)) [S.okAnswer (st.db.users.count u)] else []),
        none, Spec.FillServer.assigned p u a, ?_, fun j hj hk => by simp [hj, hk], ⟨rfl, rfl⟩, ?_⟩
      · rw [ftalk_append, htalk, Option.bind_some, ftalk_one S st _ i2 m2 _ hreact]
        rfl
      · intro s r hc1 hc2
        dsimp only at hc1 hc2
        rw [if_pos rfl, if_neg (by omega), List.append_nil] at hc1
        rw [if_pos rfl, if_neg (by omega), List.nil_append] at hc2
        obtain ⟨q, h3⟩ := hq _ _ hc1
        obtain ⟨rs, rs', s1, s2, s3, k1, k2, k3, k4, k5, k7⟩ := first_and_rest hS hc1 h3
        rw [← k5 i2 (by omega)] at hc2
        obtain ⟨x, c', k8, k9, k10⟩ := fill_execute_ok hS hlu g1 hc2
        refine ⟨s3.put i2 c' (fillLog [(i2, m2)]), ?_, ?_, ?_, ?_, ?_⟩
        · unfold fillUser
          rw [SM.bind_of_ok k1, SM.bind_of_ok k2]
          dsimp only
          rw [SM.bind_of_ok k3]
          dsimp only
          rw [if_pos (by rfl), SM.bind_of_ok (on_cmd k8 k9)]
          rfl
        · rw [fillLog_append, ← List.append_assoc, ← k4]; rfl
        · intro j hj hk
          rw [Conns.put_other _ _ _ hk, k5 j hj]
        · rw [Conns.put_other _ _ _ (by omega)]; exact k7
        · rw [Conns.put_same]; exact k10

/-- the column itself does not matter for who has one address. -/
theorem settle_primary (S : FillServer) (db : FillDb) (x : Option (UInt32 → Option UInt32)) (p : UInt32 → Option UInt32)
    (us : List UInt32) : S.settle { db with primary := x } p us = S.settle db p us := by
  induction us generalizing p with
  | nil => rfl
  | cons u us ih =>
    rw [Spec.FillServer.settle, Spec.FillServer.settle]
    have : Spec.FillServer.theOne { db with primary := x } u = Spec.FillServer.theOne db u := rfl
    rw [this]
    cases Spec.FillServer.theOne db u with
    | none => exact ih p
    | some a =>
      dsimp only
      cases S.refuses { db with primary := some p } u a with
      | none => exact ih _
      | some e => rfl

/-- the loop. -/
theorem loop_talk {i0 i1 i2 : Nat} (h01 : i0 ≠ i1) (h02 : i0 ≠ i2) (h12 : i1 ≠ i2) {S : FillServer}
    (hS : FairFill S) (fp : FloatParse) (pa pu : Prepared) (hla : pa.params = 1)
    (hlu : pu.params = 2) (us : List UInt32) (st : FillState) (p : UInt32 → Option UInt32)
    (hpa : st.prepared i1 pa.id.toNat = some .addresses)
    (hpu : st.prepared i2 pu.id.toNat = some .update) (hdb : st.db.primary = some p) :
    ∃ cmds sent st', S.talk st cmds = some (st', sent) ∧ (∀ j, j ≠ i1 → j ≠ i2 → sent j = []) ∧ st'.db = (S.settle st.db p us).1 ∧
      ∀ (s : Conns) (r : Nat → List Rx) (c : Conn) (q : UInt8) (rx : List Rx) (fuel : Nat), us.length < fuel →
        FillRest S c rx →
        s.conn i0 = Conn.feed { c with pendingResult := true } q
          (us.map Spec.FillServer.textRow ++ [Spec.terminator S.status.toNat S.warnings.toNat]) (r i0) →
        FillRest S (s.conn i1) (rxOf (sent i1) ++ r i1) → FillRest S (s.conn i2) (rxOf (sent i2) ++ r i2) →
        ∃ s', fillLoop i0 i1 i2 fp pa pu fuel { columns := [columnOf S.userDesc .long], okPacket := none } s =
            (fillOutcome S (S.settle st.db p us).2, s') ∧ s'.log = s.log ++ fillLog cmds ∧
          ((S.settle st.db p us).2 = none → FillRest S (s'.conn i0) (r i0)) ∧
          FillRest S (s'.conn i1) (r i1) ∧ FillRest S (s'.conn i2) (r i2) ∧
          ∀ j, j ≠ i0 → j ≠ i1 → j ≠ i2 → s'.conn j = s.conn j := by
  induction us generalizing st p with
  | nil =>
    refine ⟨[], fun _ => [], st, rfl, fun _ _ _ => rfl, ?_, ?_⟩
    · unfold Spec.FillServer.settle
      cases st with | mk db pr => cases db; simp only at hdb; subst hdb; rfl
    · intro s r c q rx fuel hf hc h0 h1 h2
      obtain ⟨fuel, rfl⟩ : ∃ k, fuel = k + 1 := ⟨fuel - 1, by simp at hf; omega⟩
      have h4 := next_term (textReader fp mkPlain) { columns := [columnOf S.userDesc .long], okPacket := none }
        { c with pendingResult := true } q S.status.toNat S.warnings.toNat [] (r i0) rfl
      rw [List.map_nil, List.nil_append] at h0
      rw [← h0] at h4
      unfold fillLoop
      rw [SM.bind_of_ok (on_read h4 (by rw [h0]))]
      refine ⟨_, rfl, ?_, fun _ => ?_, ?_, ?_, fun j hj _ _ => Conns.put_other _ _ _ hj⟩
      · simp [Conns.put, fillLog]
      · rw [Conns.put_same]
        exact ⟨rfl, hc.faults, hc.track, hc.p41, by simp [Spec.framesAll, rxOf]⟩
      · rw [Conns.put_other _ _ _ (by omega)]; exact h1
      · rw [Conns.put_other _ _ _ (by omega)]; exact h2
  | cons u us ih =>
    obtain ⟨cmds1, sent1, e, p', t1, t2, t3, t4⟩ := user_talk h12 hS st pa pu p hpa hla hpu hlu hdb u
    have hrows := rows_users hS fp (u :: us)
    unfold RowsAs at hrows
    rw [List.map_cons, List.map_cons] at hrows
    obtain ⟨⟨g1, vs, g2, g3⟩, -⟩ := List.forall₂_cons.1 hrows
    have hnext : ∀ (s : Conns) (c : Conn) (q : UInt8) (r : List Rx),
        s.conn i0 = Conn.feed { c with pendingResult := true } q
          ((u :: us).map Spec.FillServer.textRow ++ [Spec.terminator S.status.toNat S.warnings.toNat]) r →
        on i0 (RSet.next (textReader fp mkPlain) { columns := [columnOf S.userDesc .long], okPacket := none }) s =
          (.ok ({ columns := [columnOf S.userDesc .long], okPacket := none }, some [.uint u]),
            s.put i0 (Conn.feed { c with pendingResult := true }
              (q + UInt8.ofNat (Spec.frameCount (Spec.FillServer.textRow u)))
              (us.map Spec.FillServer.textRow ++ [Spec.terminator S.status.toNat S.warnings.toNat]) r) []) := by
      intro s c q r h0
      have h4 := next_row (textReader fp mkPlain) { columns := [columnOf S.userDesc .long], okPacket := none }
        { c with pendingResult := true } q (Spec.FillServer.textRow u)
        (us.map Spec.FillServer.textRow ++ [Spec.terminator S.status.toNat S.warnings.toNat]) r rfl g1 g2 g3
      rw [List.map_cons, List.cons_append] at h0
      rw [← h0] at h4
      exact on_read h4 (by rw [h0])
    have hdbp : ({ st.db with primary := some p } : FillDb) = st.db := by
      cases st with | mk db pr => cases db; simp only at hdb; subst hdb; rfl
    -- the case in which it goes on
    have goes : e = none → (S.settle st.db p (u :: us)) = S.settle st.db p' us →
        ∃ cmds sent st', S.talk st cmds = some (st', sent) ∧ (∀ j, j ≠ i1 → j ≠ i2 → sent j = []) ∧ st'.db = (S.settle st.db p (u :: us)).1 ∧
      ∀ (s : Conns) (r : Nat → List Rx) (c : Conn) (q : UInt8) (rx : List Rx) (fuel : Nat), (u :: us).length < fuel →
        FillRest S c rx →
        s.conn i0 = Conn.feed { c with pendingResult := true } q
          ((u :: us).map Spec.FillServer.textRow ++ [Spec.terminator S.status.toNat S.warnings.toNat]) (r i0) →
        FillRest S (s.conn i1) (rxOf (sent i1) ++ r i1) → FillRest S (s.conn i2) (rxOf (sent i2) ++ r i2) →
        ∃ s', fillLoop i0 i1 i2 fp pa pu fuel { columns := [columnOf S.userDesc .long], okPacket := none } s =
            (fillOutcome S (S.settle st.db p (u :: us)).2, s') ∧ s'.log = s.log ++ fillLog cmds ∧
          ((S.settle st.db p (u :: us)).2 = none → FillRest S (s'.conn i0) (r i0)) ∧
          FillRest S (s'.conn i1) (r i1) ∧ FillRest S (s'.conn i2) (r i2) ∧
          ∀ j, j ≠ i0 → j ≠ i1 → j ≠ i2 → s'.conn j = s.conn j := by
      intro he hsettle
      subst he
      rw [hsettle]
      obtain ⟨cmds2, sent2, st', w1, w2, w3, w4⟩ :=
        ih { st with db := { st.db with primary := some p' } } p' hpa hpu rfl
      have hsame : S.settle { st.db with primary := some p' } p' us = S.settle st.db p' us := settle_primary ..
      dsimp only at w3 w4
      rw [hsame] at w3 w4
      refine ⟨cmds1 ++ cmds2, fun j => sent1 j ++ sent2 j, st', ?_, ?_, w3, ?_⟩
      · rw [ftalk_append, t1, Option.bind_some, w1]; rfl
      · intro j hj hk
        simp [t2 j hj hk, w2 j hj hk]
      · intro s r c q rx fuel hf hc h0 h1 h2
        obtain ⟨fuel, rfl⟩ : ∃ k, fuel = k + 1 := ⟨fuel - 1, by simp at hf; omega⟩
        rw [rxOf_append, List.append_assoc] at h1 h2
        have hn := hnext s c q (r i0) h0
        generalize hs1 : s.put i0 _ [] = s1 at hn
        have e0 := (congrArg (fun t => Conns.conn t i0) hs1.symm).trans (Conns.put_same ..)
        obtain ⟨s2, j1, j2, j3, j4, j5⟩ := t4 s1 (fun i => rxOf (sent2 i) ++ r i)
          (by rw [← hs1, Conns.put_other _ _ _ (by omega)]; exact h1)
          (by rw [← hs1, Conns.put_other _ _ _ (by omega)]; exact h2)
        obtain ⟨s3, l1, l2, l3, l4, l5, l6⟩ := w4 s2 r c _ rx fuel (by simpa using hf) hc (by rw [j3 i0 h01 h02]; exact e0) j4 j5
        refine ⟨s3, ?_, ?_, l3, l4, l5, fun j g0 g1 g2 => ?_⟩
        · unfold fillLoop
          rw [SM.bind_of_ok hn]
          exact (SM.bind_of_ok j1).trans l1
        · rw [l2, j2, fillLog_append, ← hs1]
          simp [Conns.put]
        · rw [l6 j g0 g1 g2, j3 j g1 g2, ← hs1, Conns.put_other _ _ _ g0]
    -- what the user leads to
    cases h1 : Spec.FillServer.theOne st.db u with
    | none =>
      rw [h1] at t3
      obtain ⟨rfl, rfl⟩ := t3
      exact goes rfl (by rw [Spec.FillServer.settle, h1])
    | some a =>
      rw [h1] at t3
      dsimp only at t3
      cases h2 : S.refuses st.db u a with
      | none =>
        rw [h2] at t3
        obtain ⟨rfl, rfl⟩ := t3
        exact goes rfl (by
          rw [Spec.FillServer.settle, h1]
          dsimp only
          rw [hdbp, h2])
      | some e' =>
        rw [h2] at t3
        obtain ⟨rfl, rfl⟩ := t3
        have hsettle : S.settle st.db p' (u :: us) = ({ st.db with primary := some p' }, some e') := by
          rw [Spec.FillServer.settle, h1]
          dsimp only
          rw [hdbp, h2]
        rw [hsettle]
        refine ⟨cmds1, sent1, _, t1, t2, rfl, ?_⟩
        intro s r c q rx fuel hf hc h0 h1 h2
        obtain ⟨fuel, rfl⟩ : ∃ k, fuel = k + 1 := ⟨fuel - 1, by simp at hf; omega⟩
        have hn := hnext s c q (r i0) h0
        generalize hs1 : s.put i0 _ [] = s1 at hn
        obtain ⟨s2, j1, j2, j3, j4, j5⟩ := t4 s1 r
          (by rw [← hs1, Conns.put_other _ _ _ (by omega)]; exact h1)
          (by rw [← hs1, Conns.put_other _ _ _ (by omega)]; exact h2)
        refine ⟨s2, ?_, ?_, fun h => (nomatch h), j4, j5, fun j g0 g1 g2 => ?_⟩
        · unfold fillLoop
          rw [SM.bind_of_ok hn]
          exact SM.bind_of_err j1
        · rw [j2, ← hs1]
          simp [Conns.put]
        · rw [j3 j g1 g2, ← hs1, Conns.put_other _ _ _ g0]

end Verif

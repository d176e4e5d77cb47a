import Verif.Proofs.FillRun
import Verif.Props.C38_Pool

/-! # C99 — a migration that fills a column, on three connections -/

namespace Verif

open Spec (FillServer FillState FillDb FillStmt SqlError)
open Spec.FillServer (talk react)

section
attribute [local irreducible] fillAlterSql fillUsersSql fillAddressesSql fillUpdateSql fillDownSql

theorem ftalk_then {S : FillServer} {st st1 st2 : FillState} {a b : List (Nat × Bytes)} {x y : Nat → Bytes}
    (h1 : S.talk st a = some (st1, x)) (h2 : S.talk st1 b = some (st2, y)) :
    S.talk st (a ++ b) = some (st2, fun j => x j ++ y j) := by
  rw [ftalk_append, h1, Option.bind_some, h2]
  rfl

theorem react_text (S : FillServer) (i : Nat) (st : FillState) (sql : Str) (ts : List Spec.Tok) (h : Spec.tokens sql = some ts) :
    S.react i st (0x03 :: utf8 sql) =
      if ts = Spec.FillServer.alterToks then
        match S.refusesColumn st.db with
        | some e => some (st, [S.errAnswer e])
        | none => some ({ st with db := { st.db with primary := some fun _ => none } }, [S.okAnswer 0])
      else if ts = Spec.FillServer.dropToks then
        match S.refusesDrop st.db with
        | some e => some (st, [S.errAnswer e])
        | none => some ({ st with db := { st.db with primary := none } }, [S.okAnswer 0])
      else if ts = Spec.FillServer.usersToks then
        some (st, Spec.resultSet [S.userDesc] ((S.order st.db.users).map Spec.FillServer.textRow) S.status.toNat
          S.warnings.toNat)
      else none := by
  rw [react, if_pos rfl, fromUtf8_utf8]
  simp only [Option.bind_eq_bind, Option.bind_some]
  rw [h]
  rfl

theorem react_prepare (S : FillServer) (i : Nat) (st : FillState) (sql : Str) (ts : List Spec.Tok)
    (h : Spec.tokens sql = some ts) :
    S.react i st (0x16 :: utf8 sql) =
      if ts = Spec.FillServer.addressesToks then
        some ({ st with prepared := fun j m => if j = i ∧ m = (S.nextStmt st i).toNat then some .addresses else st.prepared j m },
          [Spec.stmtOk (S.nextStmt st i).toNat 1 1 0, S.paramDef, Spec.colDef S.addressDesc])
      else if ts = Spec.FillServer.updateToks then
        some ({ st with prepared := fun j m => if j = i ∧ m = (S.nextStmt st i).toNat then some .update else st.prepared j m },
          [Spec.stmtOk (S.nextStmt st i).toNat 0 2 0, S.paramDef, S.paramDef])
      else none := by
  rw [react, if_neg (by decide), if_pos rfl, fromUtf8_utf8]
  simp only [Option.bind_eq_bind, Option.bind_some]
  rw [h]
  simp only [Option.bind_some]

theorem query_users {S : FillServer} (hS : FairFill S) {c : Conn} {rows : List Bytes} {r : List Rx}
    (hc : FillRest S c (rxOf (Spec.framesAll (UInt8.ofNat (Spec.frameCount (0x03 :: utf8 fillUsersSql)))
      (Spec.resultSet [S.userDesc] rows S.status.toNat S.warnings.toNat)) ++ r)) :
    query fillUsersSql c = (.ok { columns := [columnOf S.userDesc .long], okPacket := none },
      Conn.feed { c with tx := c.tx ++ Spec.frames 0 (0x03 :: utf8 fillUsersSql), pendingResult := true }
        (Spec.seqAfter (UInt8.ofNat (Spec.frameCount (0x03 :: utf8 fillUsersSql))) (headPackets [S.userDesc]))
        (rows ++ [Spec.terminator S.status.toNat S.warnings.toNat]) r) := by
  unfold query
  rw [SM.bind_of_ok (executeCommand_clean .query (utf8 fillUsersSql) c hc.pending hc.faults)]
  have := fill_head hS.user.1 { c with tx := c.tx ++ Spec.frames 0 (0x03 :: utf8 fillUsersSql) }
    (UInt8.ofNat (Spec.frameCount (0x03 :: utf8 fillUsersSql))) rows S.status.toNat S.warnings.toNat r
  rw [Conn.feed, ← hc.rx] at this
  exact this

/-- The migration against a server with users and addresses, on any three connections that are at rest: there
is a conversation, and the program, fed with the server's bytes on every connection, is its other side.  The
other connections are left alone. -/
theorem C99_fill {S : FillServer} (hS : FairFill S) (fp : FloatParse) (st : FillState) (i0 i1 i2 : Nat)
    (h01 : i0 ≠ i1) (h02 : i0 ≠ i2) (h12 : i1 ≠ i2) :
    ∃ cmds sent st', S.talk st cmds = some (st', sent) ∧ st'.db = (S.filled st.db).1 ∧
      (∀ i, i ∉ [i0, i1, i2] → sent i = []) ∧
      ∀ (s : Conns) (r : Nat → List Rx), (∀ i ∈ [i0, i1, i2], FillRest S (s.conn i) (rxOf (sent i) ++ r i)) →
        ∃ s', fill i0 i1 i2 fp s = (fillOutcome S (S.filled st.db).2, s') ∧ s'.log = s.log ++ fillLog cmds ∧
          ((S.filled st.db).2 = none → ∀ i ∈ [i0, i1, i2], FillRest S (s'.conn i) (r i)) ∧
          (∀ i, i ∉ [i0, i1, i2] → s'.conn i = s.conn i) ∧
          (fillAlter i0 s).1 = fillOutcome S (S.refusesColumn st.db) := by
  have r1 := react_text S i0 st _ _ reads_alter
  rw [if_pos rfl] at r1
  cases hcol : S.refusesColumn st.db with
  | some e =>
    have hfilled : S.filled st.db = (st.db, some e) := by
      unfold Spec.FillServer.filled; rw [hcol]
    rw [hcol] at r1
    rw [hfilled]
    refine ⟨_, _, _, ftalk_one S _ _ _ _ _ r1, rfl, fun i hi => if_neg (by simp at hi; omega), fun s r hc => ?_⟩
    have h0 := hc i0 (by simp)
    rw [if_pos rfl] at h0
    obtain ⟨c', k1, k2, -⟩ := fill_err (hS.column _ _ hcol) h0
    have ha : fillAlter i0 s = (.err (fillRefusal S e), s.put i0 c' (fillLog [(i0, 0x03 :: utf8 fillAlterSql)])) :=
      SM.bind_of_err (on_cmd k1 k2)
    refine ⟨s.put i0 c' (fillLog [(i0, 0x03 :: utf8 fillAlterSql)]), ?_, ?_, fun h => (nomatch h),
      fun i hi => Conns.put_other _ _ _ (by simp at hi; omega), ?_⟩
    · exact SM.bind_of_err (m := fillAlter i0) ha
    · rfl
    · rw [ha]; rfl
  | none =>
    rw [hcol] at r1
    dsimp only at r1
    generalize hst1 : ({ st with db := { st.db with primary := some fun _ => none } } : FillState) = st1 at r1
    have hdb1 : st1.db.primary = some fun _ => none := by rw [← hst1]
    have hfilled : S.filled st.db = S.settle st1.db (fun _ => none) (S.order st.db.users) := by
      unfold Spec.FillServer.filled
      rw [hcol, ← hst1]
      exact (settle_primary ..).symm
    have hu1 : st1.db.users = st.db.users := by rw [← hst1]
    have r2 := react_text S i0 st1 _ _ reads_users
    rw [if_neg (by decide +kernel), if_neg (by decide +kernel), if_pos rfl, hu1] at r2
    have r3 := react_prepare S i1 st1 _ _ reads_addresses
    rw [if_pos rfl] at r3
    generalize hst2 : ({ st1 with prepared := _ } : FillState) = st2 at r3
    have hdb2 : st2.db = st1.db := by rw [← hst2]
    have hp2 : st2.prepared i1 (S.nextStmt st1 i1).toNat = some .addresses := by rw [← hst2]; simp
    have r4 := react_prepare S i2 st2 _ _ reads_fillUpdate
    rw [if_neg (by decide +kernel), if_pos rfl] at r4
    generalize hst3 : ({ st2 with prepared := _ } : FillState) = st3 at r4
    have hdb3 : st3.db = st1.db := by rw [← hst3]; exact hdb2
    have hp3 : st3.prepared i1 (S.nextStmt st1 i1).toNat = some .addresses := by
      rw [← hst3]; simpa [h12] using hp2
    have hq3 : st3.prepared i2 (S.nextStmt st2 i2).toNat = some .update := by rw [← hst3]; simp
    obtain ⟨cmds, sent, st', w1, w2, w3, w4⟩ := loop_talk h01 h02 h12 hS fp { id := S.nextStmt st1 i1, params := 1 }
      { id := S.nextStmt st2 i2, params := 2 } rfl rfl (S.order st.db.users) st3 (fun _ => none) hp3 hq3
      (by rw [hdb3]; exact hdb1)
    rw [hdb3, ← hfilled] at w3 w4
    have t1 := ftalk_one S _ _ _ _ _ r1
    have t2 := ftalk_one S _ _ _ _ _ r2
    have t3 := ftalk_one S _ _ _ _ _ r3
    have t4 := ftalk_one S _ _ _ _ _ r4
    generalize hps : Spec.resultSet [S.userDesc] _ _ _ = users at t2
    have htalk := ftalk_then t1 (ftalk_then t2 (ftalk_then t3 (ftalk_then t4 w1)))
    refine ⟨_, _, st', htalk, w3, ?_, ?_⟩
    · intro i hi
      simp only [List.mem_cons, List.not_mem_nil, or_false, not_or] at hi
      simp [hi.1, hi.2.1, hi.2.2, w2]
    · intro s r hc
      have h0 := hc i0 (by simp)
      have h1 := hc i1 (by simp)
      have h2 := hc i2 (by simp)
      clear hc
      simp only [if_true, w2 i0 h01 h02, List.append_nil, List.nil_append,
        h01, h02, h12, Ne.symm h01, Ne.symm h02, Ne.symm h12, if_false,
        rxOf_append, List.append_assoc] at h0 h1 h2
      obtain ⟨x, c1, k1, k2, k3⟩ := fill_ok hS h0
      have e1 := on_cmd k1 k2
      generalize hs1 : s.put i0 c1 _ = s1 at e1
      have hs1c : s1.conn i0 = c1 := by rw [← hs1]; exact Conns.put_same ..
      -- the users
      rw [← hps] at k3
      have hq := query_users hS k3
      rw [← hs1c] at hq
      have e2 := on_cmd (m := 0x03 :: utf8 fillUsersSql) hq (by rw [hs1c])
      generalize hs2 : s1.put i0 _ _ = s2 at e2
      have hs2c := (congrArg (fun t => Conns.conn t i0) hs2.symm).trans (Conns.put_same ..)
      have hs21 : s2.conn i1 = s.conn i1 := by
        rw [← hs2, Conns.put_other _ _ _ (by omega), ← hs1, Conns.put_other _ _ _ (by omega)]
      have hs22 : s2.conn i2 = s.conn i2 := by
        rw [← hs2, Conns.put_other _ _ _ (by omega), ← hs1, Conns.put_other _ _ _ (by omega)]
      rw [← hs21] at h1
      obtain ⟨c3, k4, k5, k6⟩ := fill_prepare (cols := 1) (params := 1) (by rfl) h1
      have e3 := on_cmd k4 k5
      generalize hs3 : s2.put i1 _ _ = s3 at e3
      rw [← hs22, ← show s3.conn i2 = s2.conn i2 by rw [← hs3, Conns.put_other _ _ _ (by omega)]] at h2
      obtain ⟨c4, k7, k8, k9⟩ := fill_prepare (cols := 0) (params := 2) (by rfl) h2
      have e4 := on_cmd k7 k8
      generalize hs4 : s3.put i2 _ _ = s4 at e4
      have h40 : s4.conn i0 = s2.conn i0 := by
        rw [← hs4, Conns.put_other _ _ _ (by omega), ← hs3, Conns.put_other _ _ _ (by omega)]
      have hlen : (S.order st.db.users).length < (s4.conn i0).rx.length + 2 := by
        rw [h40, hs2c]
        have := feed_rx_length { c1 with tx := c1.tx ++ Spec.frames 0 (0x03 :: utf8 fillUsersSql), pendingResult := true }
          (Spec.seqAfter (UInt8.ofNat (Spec.frameCount (0x03 :: utf8 fillUsersSql))) (headPackets [S.userDesc]))
          ((S.order st.db.users).map Spec.FillServer.textRow ++ [Spec.terminator S.status.toNat S.warnings.toNat]) (r i0)
        rw [List.length_append, List.length_map] at this
        refine Nat.lt_of_lt_of_le ?_ (Nat.add_le_add_right this 2)
        omega
      obtain ⟨s', l1, l2, l3, l4, l5, l6⟩ := w4 s4 r
        { c1 with tx := c1.tx ++ Spec.frames 0 (0x03 :: utf8 fillUsersSql) } _ c1.rx _ hlen
        ⟨k3.pending, k3.faults, k3.track, k3.p41, rfl⟩ (by rw [h40, ← hs1c]; exact hs2c)
        (by rw [← hs4, Conns.put_other _ _ _ (by omega), ← hs3, Conns.put_same]; exact k6)
        (by rw [← hs4, Conns.put_same]; exact k9)
      have ha : fillAlter i0 s = (.ok (), s1) := SM.bind_of_ok e1
      refine ⟨s', ?_, ?_, ?_, ?_, ?_⟩
      · refine (SM.bind_of_ok ha).trans ?_
        unfold fillRows
        rw [SM.bind_of_ok e2, SM.bind_of_ok e3, SM.bind_of_ok e4, SM.get_bind_apply]
        exact l1
      · rw [l2, ← hs4, ← hs3, ← hs2, ← hs1]
        simp [Conns.put, fillLog]
      · intro h i hi
        simp only [List.mem_cons, List.not_mem_nil, or_false] at hi
        rcases hi with rfl | rfl | rfl
        · exact l3 h
        · exact l4
        · exact l5
      · intro i hi
        simp only [List.mem_cons, List.not_mem_nil, or_false, not_or] at hi
        rw [l6 i hi.1 hi.2.1 hi.2.2, ← hs4, Conns.put_other _ _ _ hi.2.2, ← hs3, Conns.put_other _ _ _ hi.2.1, ← hs2,
          Conns.put_other _ _ _ hi.1, ← hs1, Conns.put_other _ _ _ hi.1]
      · rw [ha]; rfl
end

/-! ### the outcome -/

theorem settle_done (S : FillServer) (db : FillDb) (us : List UInt32) (p : UInt32 → Option UInt32)
    (h : (S.settle db p us).2 = none) :
    ∃ p', (S.settle db p us).1 = { db with primary := some p' } ∧
      ∀ u, p' u = if u ∈ us then (Spec.FillServer.theOne db u).or (p u) else p u := by
  induction us generalizing p with
  | nil => exact ⟨p, rfl, fun u => by simp⟩
  | cons v us ih =>
    rw [Spec.FillServer.settle] at h ⊢
    cases h1 : Spec.FillServer.theOne db v with
    | none =>
      rw [h1] at h
      obtain ⟨p', k1, k2⟩ := ih p h
      refine ⟨p', k1, fun u => ?_⟩
      rw [k2 u]
      by_cases hu : u = v
      · subst hu
        simp [h1]
      · simp [hu]
    | some a =>
      rw [h1] at h
      dsimp only at h ⊢
      cases h2 : S.refuses { db with primary := some p } v a with
      | some e => rw [h2] at h; cases h
      | none =>
        rw [h2] at h
        obtain ⟨p', k1, k2⟩ := ih _ h
        refine ⟨p', k1, fun u => ?_⟩
        rw [k2 u]
        unfold Spec.FillServer.assigned
        by_cases hu : u = v
        · subst hu
          simp [h1]
        · simp [hu]

/-- If the server refuses nothing, the column is there afterwards, and it is set for exactly the users who
have exactly one address, to that address; nothing else changes. -/
theorem C99_exactly_one {S : FillServer} (hS : FairFill S) (db : FillDb) (h : (S.filled db).2 = none) :
    ∃ p, (S.filled db).1 = { db with primary := some p } ∧
      ∀ u a, p u = some a ↔ u ∈ db.users ∧ (db.addresses.filter fun x => x.2 = u).map (·.1) = [a] := by
  unfold Spec.FillServer.filled at h ⊢
  cases hc : S.refusesColumn db with
  | some e => rw [hc] at h; cases h
  | none =>
    rw [hc] at h
    obtain ⟨p, h1, h2⟩ := settle_done S db _ _ h
    refine ⟨p, h1, fun u a => ?_⟩
    rw [h2 u]
    simp only [(hS.order db.users).mem_iff]
    unfold Spec.FillServer.theOne
    by_cases hu : u ∈ db.users
    · simp only [hu, if_true, true_and]
      generalize (db.addresses.filter fun x => decide (x.2 = u)) = l
      match l with
      | [] => simp
      | [x] => simp
      | _ :: _ :: _ => simp
    · simp [hu]

/-- Also if the server refuses one of the assignments, the column is there afterwards; so the migration
cannot be tried again if the server refuses a column that exists: nothing changes any more, also not for the
users that are missing. -/
theorem C99_halfway {S : FillServer} (db : FillDb)
    (hc : S.refusesColumn db = none)
    (hdup : ∀ d : FillDb, d.primary.isSome → (S.refusesColumn d).isSome) :
    ∃ e', S.filled (S.filled db).1 = ((S.filled db).1, some e') := by
  have hsome : (S.filled db).1.primary.isSome := by
    unfold Spec.FillServer.filled
    rw [hc]
    dsimp only
    generalize (fun _ => none : UInt32 → Option UInt32) = p
    generalize S.order db.users = us
    induction us generalizing p with
    | nil => rfl
    | cons u us ih =>
      rw [Spec.FillServer.settle]
      cases Spec.FillServer.theOne db u with
      | none => exact ih p
      | some a =>
        dsimp only
        cases S.refuses { db with primary := some p } u a with
        | some e => rfl
        | none => exact ih _
  have := hdup _ hsome
  obtain ⟨e', he⟩ := Option.isSome_iff_exists.1 this
  exact ⟨e', by rw [Spec.FillServer.filled, he]⟩

section
attribute [local irreducible] fillDownSql

/-- Undoing it: the column is gone, or the server's error is returned and nothing changes. -/
theorem C99_down {S : FillServer} (hS : FairFill S) (st : FillState) (i0 : Nat) :
    ∃ sent st', S.talk st [(i0, 0x03 :: utf8 fillDownSql)] = some (st', sent) ∧
      (∀ i, i ≠ i0 → sent i = []) ∧
      st'.db = (if (S.refusesDrop st.db).isSome then st.db else { st.db with primary := none }) ∧
      ∀ (s : Conns) (r : List Rx), FillRest S (s.conn i0) (rxOf (sent i0) ++ r) →
        ∃ s', fillDown i0 s = (fillOutcome S (S.refusesDrop st.db), s') ∧
          s'.log = s.log ++ fillLog [(i0, 0x03 :: utf8 fillDownSql)] ∧ FillRest S (s'.conn i0) r ∧
          ∀ i, i ≠ i0 → s'.conn i = s.conn i := by
  have r1 := react_text S i0 st _ _ reads_down
  rw [if_neg (by decide +kernel), if_pos rfl] at r1
  cases hd : S.refusesDrop st.db with
  | some e =>
    rw [hd] at r1
    refine ⟨_, _, ftalk_one S _ _ _ _ _ r1, fun i hi => if_neg hi, rfl, fun s r hc => ?_⟩
    rw [if_pos rfl] at hc
    obtain ⟨c', k1, k2, k3⟩ := fill_err (hS.drop _ _ hd) hc
    refine ⟨s.put i0 c' (fillLog [(i0, 0x03 :: utf8 fillDownSql)]), SM.bind_of_err (on_cmd k1 k2), rfl, ?_,
      fun i hi => Conns.put_other _ _ _ hi⟩
    rw [Conns.put_same]
    exact k3
  | none =>
    rw [hd] at r1
    refine ⟨_, _, ftalk_one S _ _ _ _ _ r1, fun i hi => if_neg hi, rfl, fun s r hc => ?_⟩
    rw [if_pos rfl] at hc
    obtain ⟨x, c', k1, k2, k3⟩ := fill_ok hS hc
    refine ⟨s.put i0 c' (fillLog [(i0, 0x03 :: utf8 fillDownSql)]), SM.bind_of_ok (on_cmd k1 k2), rfl, ?_,
      fun i hi => Conns.put_other _ _ _ hi⟩
    rw [Conns.put_same]
    exact k3
end

/-- With a pool of fewer than three connections nobody ever holds three: the migration, which asks for the
third one while it holds two, waits forever, whatever else happens. -/
theorem C99_pool (N : Nat) (hN : N < 3) (es : List PoolEv) (s : Pool) (h : Pool.new.run N es = some s) :
    (Spec.inUse s).length < 3 := by
  have := (C38_limit N es s h).1
  omega

/-! ### a concrete case -/

namespace C99

def desc (table : String) : Spec.ColDesc :=
  { db := "d".toList, table := table.toList, orgTable := table.toList, name := "id".toList, orgName := "id".toList,
    charset := 63, length := 10, code := 3, flags := 0x1023, decimals := 0 }

/-- a server that has the column at most once and knows which addresses there are. -/
def server : FillServer where
  refusesColumn db := if db.primary.isSome then some ⟨1060, "42S21".toList, "Duplicate column".toList⟩ else none
  refuses _ u _ := if u = 9 then some ⟨1690, "22003".toList, "no".toList⟩ else none
  refusesDrop db := if db.primary.isSome then none else some ⟨1091, "42000".toList, "Can't DROP".toList⟩
  order := id
  found := List.reverse
  nextStmt _ i := UInt32.ofNat i
  userDesc := desc "user"
  addressDesc := desc "address"
  paramDef := Spec.colDef (desc "p")
  affected k := UInt64.ofNat k
  status := 2
  warnings := 0
  message := []
  protocol41 := true

theorem fair : FairFill server where
  message := by decide
  column := by
    intro db e h
    dsimp only [server] at h
    split at h
    · cases h; decide +kernel
    · cases h
  update := by
    intro db u a e h
    dsimp only [server] at h
    split at h
    · cases h; decide +kernel
    · cases h
  drop := by
    intro db e h
    dsimp only [server] at h
    split at h
    · cases h
    · cases h; decide +kernel
  order us := .refl _
  found ids := ids.reverse_perm
  user := by refine ⟨⟨?_, ?_, ?_, ?_, ?_⟩, ?_⟩ <;> (first | unfold shortNames | skip) <;> decide +kernel
  address := by refine ⟨⟨?_, ?_, ?_, ?_, ?_⟩, ?_⟩ <;> (first | unfold shortNames | skip) <;> decide +kernel

/-- the first user has two addresses, the second one, the third none. -/
def db : FillDb where
  users := [1, 2, 3]
  addresses := [(10, 1), (11, 2), (12, 1)]
  primary := none

example : (server.filled db).2 = none ∧
    (server.filled db).1.primary.map (fun p => [1, 2, 3].map p) = some [none, some 11, none] := by
  decide +kernel

-- with a user whose assignment is refused, after one that is not
example : ((server.filled { db with users := [2, 9, 5], addresses := [(10, 9), (11, 2), (12, 5)] }).2.map (·.code)) =
      some 1690 ∧
    (server.filled { db with users := [2, 9, 5], addresses := [(10, 9), (11, 2), (12, 5)] }).1.primary.map
      (fun p => [2, 9, 5].map p) = some [some 11, none, none] := by
  decide +kernel

/-- the commands, each on its connection: for every user a question, for the second one an assignment. -/
def cmds : List (Nat × Bytes) :=
  [(0, 0x03 :: utf8 fillAlterSql), (0, 0x03 :: utf8 fillUsersSql), (1, 0x16 :: utf8 fillAddressesSql),
   (2, 0x16 :: utf8 fillUpdateSql),
   (1, [0x17, 1, 0, 0, 0, 0, 1, 0, 0, 0, 0, 1, 3, 0x80, 1, 0, 0, 0]),
   (1, [0x17, 1, 0, 0, 0, 0, 1, 0, 0, 0, 0, 1, 3, 0x80, 2, 0, 0, 0]),
   (2, [0x17, 2, 0, 0, 0, 0, 1, 0, 0, 0, 0, 1, 3, 0x80, 3, 0x80, 11, 0, 0, 0, 2, 0, 0, 0]),
   (1, [0x17, 1, 0, 0, 0, 0, 1, 0, 0, 0, 0, 1, 3, 0x80, 3, 0, 0, 0])]

def state : FillState := { db := db, prepared := fun _ _ => none }

def start : Conns where
  conn i := exConn (((server.talk state cmds).map fun x => x.2 i).getD [])
  log := []

def noFloats : FloatParse := { f32 := fun _ => none, f64 := fun _ => none }

-- the server's side
example : ((server.talk state cmds).bind fun x => x.1.db.primary.map fun p => [1, 2, 3].map p) =
    some [none, some 11, none] := by
  decide +kernel

-- and the program's
example : (fill 0 1 2 noFloats start).1 = .ok () ∧ (fill 0 1 2 noFloats start).2.log = fillLog cmds ∧
    ∀ i < 3, ((fill 0 1 2 noFloats start).2.conn i).rx = [] := by
  refine ⟨?_, ?_, ?_⟩ <;> decide +kernel

end C99

end Verif

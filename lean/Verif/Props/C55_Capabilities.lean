import Verif.Model.Api
import Verif.Props.C36_Handshake
import Verif.Props.C37_Login
import Verif.Proofs.Fixed
import Verif.Proofs.DataKept

/-! # C55 — capabilities are the intersection of offer and implementation -/

namespace Verif

theorem eat_ok {n : Nat} {s b s' : Bytes} (h : P.eat n s = (.ok b, s')) :
    n ≤ s.length ∧ b = s.take n ∧ s' = s.drop n := by
  unfold P.eat at h
  split at h
  · cases h; exact ⟨by assumption, rfl, rfl⟩
  · cases h

theorem eatNat_ok {k n : Nat} {s s' : Bytes} (h : P.eatNat k s = (.ok n, s')) :
    k ≤ s.length ∧ n = leNat (s.take k) ∧ s' = s.drop k := by
  unfold P.eatNat at h
  obtain ⟨b, s1, h1, h2⟩ := SM.bind_eq_ok.1 h
  obtain ⟨h3, rfl, rfl⟩ := eat_ok h1
  cases h2; exact ⟨h3, rfl, rfl⟩

theorem eatU8_ok {x : UInt8} {s s' : Bytes} (h : P.eatU8 s = (.ok x, s')) : s' = s.drop 1 := by
  unfold P.eatU8 at h
  obtain ⟨b, s1, h1, h2⟩ := SM.bind_eq_ok.1 h
  cases h2; exact (eatNat_ok h1).2.2

theorem eatU16_ok {x : UInt16} {s s' : Bytes} (h : P.eatU16 s = (.ok x, s')) :
    2 ≤ s.length ∧ x = UInt16.ofNat (leNat (s.take 2)) ∧ s' = s.drop 2 := by
  unfold P.eatU16 at h
  obtain ⟨b, s1, h1, h2⟩ := SM.bind_eq_ok.1 h
  obtain ⟨h3, rfl, rfl⟩ := eatNat_ok h1
  cases h2; exact ⟨h3, rfl, rfl⟩

theorem eatU32_ok {x : UInt32} {s s' : Bytes} (h : P.eatU32 s = (.ok x, s')) : s' = s.drop 4 := by
  unfold P.eatU32 at h
  obtain ⟨b, s1, h1, h2⟩ := SM.bind_eq_ok.1 h
  cases h2; exact (eatNat_ok h1).2.2

theorem skip_ok {n : Nat} {u : Unit} {s s' : Bytes} (h : P.skip n s = (.ok u, s')) : s' = s.drop n := by
  unfold P.skip SM.modify at h
  cases h
  dsimp only
  rcases Nat.le_total n s.length with h | h
  · rw [Nat.min_eq_left h]
  · rw [Nat.min_eq_right h, List.drop_of_length_le h, List.drop_length]

theorem ofOut_ok {σ α : Type} {o : Out ProtocolError α} {x : α} {s s' : σ}
    (h : SM.ofOut o s = (.ok x, s')) : o = .ok x ∧ s' = s := by
  cases o <;> cases h
  exact ⟨rfl, rfl⟩

theorem leNat_two (s : Bytes) (h : 2 ≤ s.length) :
    leNat (s.take 2) = (s.getD 0 0).toNat + 256 * (s.getD 1 0).toNat := by
  match s, h with
  | a :: b :: r, _ => simp [leNat]

/-- any packet that decodes as a greeting: the capabilities are the word at the documented place. -/
theorem deserialize_caps {packet : Bytes} {hs : Handshake}
    (h : runP Handshake.deserialize packet = .ok hs) :
    hs.capabilities.toNat = Spec.offered packet := by
  unfold runP at h
  match he : Handshake.deserialize packet with
  | (.err _, _) => rw [he] at h; cases h
  | (.panic, _) => rw [he] at h; cases h
  | (.ok hs', fin) =>
  rw [he] at h
  injection h with h
  subst h
  unfold Handshake.deserialize at he
  obtain ⟨pv, s1, e1, he⟩ := SM.bind_eq_ok.1 he
  obtain ⟨sv, s2, e2, he⟩ := SM.bind_eq_ok.1 he
  obtain ⟨_, s3, e3, he⟩ := SM.bind_eq_ok.1 he
  obtain ⟨cid, s4, e4, he⟩ := SM.bind_eq_ok.1 he
  obtain ⟨n1, s5, e5, he⟩ := SM.bind_eq_ok.1 he
  obtain ⟨_, s6, e6, he⟩ := SM.bind_eq_ok.1 he
  obtain ⟨caps1, s7, e7, he⟩ := SM.bind_eq_ok.1 he
  obtain ⟨col, s8, e8, he⟩ := SM.bind_eq_ok.1 he
  obtain ⟨st, s9, e9, he⟩ := SM.bind_eq_ok.1 he
  obtain ⟨st', s10, e10, he⟩ := SM.bind_eq_ok.1 he
  obtain ⟨caps2, s11, e11, he⟩ := SM.bind_eq_ok.1 he
  obtain ⟨dl, s12, e12, he⟩ := SM.bind_eq_ok.1 he
  obtain ⟨_, s13, e13, he⟩ := SM.bind_eq_ok.1 he
  obtain ⟨caps, s14, e14, he⟩ := SM.bind_eq_ok.1 he
  obtain ⟨n2, s15, e15, he⟩ := SM.bind_eq_ok.1 he
  obtain ⟨pl, s16, e16, he⟩ := SM.bind_eq_ok.1 he
  cases he
  dsimp only
  -- the protocol byte
  have f1 : s1 = packet.drop 1 := by
    unfold P.checkedEatU8 P.checkedEatNat at e1
    obtain ⟨b, t1, g1, g2⟩ := SM.bind_eq_ok.1 e1
    obtain ⟨b', t2, g3, g4⟩ := SM.bind_eq_ok.1 g1
    unfold P.checkedEat at g3
    split at g3
    · obtain ⟨_, _, rfl⟩ := eat_ok g3
      cases g4; cases g2; rfl
    · cases g3
  -- the length check
  have f3 : s3 = s2 ∧ 31 ≤ s2.length := by
    unfold P.checkLen at e3
    split at e3
    · cases e3
    · cases e3; exact ⟨rfl, by omega⟩
  -- the version
  have f2 : s2 = s1.drop (s1.findIdx (· == 0) + 1) := by
    unfold P.eatNullStr at e2
    obtain ⟨b, t1, g1, g2⟩ := SM.bind_eq_ok.1 e2
    have : s2 = t1 := by
      match hb : fromUtf8 b with
      | some _ => rw [hb] at g2; cases g2; rfl
      | none => rw [hb] at g2; cases g2
    subst this
    unfold P.eatNullSlice at g1
    dsimp only at g1
    split at g1
    · cases g1; rfl
    · cases g1
      have := f3.2
      simp at this
  obtain ⟨f3, hlen⟩ := f3
  subst s3
  have f4 := eatU32_ok e4
  obtain ⟨_, _, f5⟩ := eat_ok e5
  have f6 := skip_ok e6
  obtain ⟨l7, v7, f7⟩ := eatU16_ok e7
  have f8 := eatU8_ok e8
  obtain ⟨_, _, f9⟩ := eatU16_ok e9
  obtain ⟨_, f10⟩ := ofOut_ok e10
  obtain ⟨l11, v11, f11⟩ := eatU16_ok e11
  obtain ⟨v14, _⟩ := ofOut_ok e14
  rw [cap_all] at v14
  injection v14 with v14
  subst v14
  rw [leNat_two _ l7] at v7
  rw [leNat_two _ l11] at v11
  have g6 : s6 = s2.drop 13 := by rw [f6, f5, f4]; simp
  have g10 : s10 = s2.drop 18 := by rw [f10, f9, f8, f7, g6]; simp
  rw [g6] at v7
  rw [g10] at v11
  simp only [List.getD_eq_getElem?_getD, List.getElem?_drop, Nat.add_zero, Nat.reduceAdd] at v7 v11
  have b13 := (s2[13]?.getD 0).toNat_lt
  have b14 := (s2[14]?.getD 0).toNat_lt
  have b18 := (s2[18]?.getD 0).toNat_lt
  have b19 := (s2[19]?.getD 0).toNat_lt
  have key : Spec.offered packet = (s2[13]?.getD 0).toNat + 256 * (s2[14]?.getD 0).toNat +
      65536 * (s2[18]?.getD 0).toNat + 16777216 * (s2[19]?.getD 0).toNat := by
    unfold Spec.offered
    simp only [← f1, ← f2, List.getD_eq_getElem?_getD]
  rw [key]
  have hw := caps_halves (UInt32.ofNat (Spec.offered packet))
  rw [key] at hw
  generalize (s2[13]?.getD 0).toNat = a at *
  generalize (s2[14]?.getD 0).toNat = b at *
  generalize (s2[18]?.getD 0).toNat = x at *
  generalize (s2[19]?.getD 0).toNat = y at *
  have hn : (UInt32.ofNat (a + 256 * b + 65536 * x + 16777216 * y)).toNat
      = a + 256 * b + 65536 * x + 16777216 * y := UInt32.toNat_ofNat_of_lt' (by simp [UInt32.size]; omega)
  rw [hn] at hw
  have k1 : (a + 256 * b + 65536 * x + 16777216 * y) % 65536 = a + 256 * b := by omega
  have k2 : (a + 256 * b + 65536 * x + 16777216 * y) / 65536 = x + 256 * y := by omega
  rw [k1, k2, ← v7, ← v11] at hw
  rw [hw, hn]

theorem DataKept.void {α : Type} {m : M α} (h : DataKept m) : DataKept m.void :=
  DataKept.bind h fun _ => DataKept.pure _

/-- no call changes options or connection data. -/
theorem runCalls_data (calls : List Call) (c : Conn) :
    (runCalls calls c).options = c.options ∧ (runCalls calls c).data = c.data := by
  induction calls generalizing c with
  | nil => exact ⟨rfl, rfl⟩
  | cons x xs ih =>
    have h : DataKept x.run := by
      cases x <;> refine DataKept.void ?_
      · exact DataKept.query _
      · exact DataKept.executeQuery _
      · exact DataKept.next _ _
      · exact DataKept.collect _ _
      · exact DataKept.one _ _
      · exact DataKept.finish _ _
      · exact DataKept.prepareStatement _
      · exact DataKept.stmtQuery _ _
      · exact DataKept.stmtExecute _ _
    have h := h c
    unfold runCalls
    rw [(ih _).1, (ih _).2]
    exact Prod.mk.inj h

/-- reading the settings changes nothing in options and connection data but the packet limit. -/
theorem readSettings_data (fp : FloatParse) (c : Conn) :
    ∃ n, (readSettings fp c).2.options = c.options ∧
      (readSettings fp c).2.data = { c.data with maxAllowedPacket := n } := by
  unfold readSettings
  rw [SM.get_bind_apply]
  split
  · unfold askLimit
    rw [SM.bind_apply]
    have h1 := DataKept.query "select @@max_allowed_packet".toList c
    match e1 : query "select @@max_allowed_packet".toList c with
    | (.err _, s) => rw [e1] at h1; exact ⟨c.data.maxAllowedPacket, Prod.mk.inj h1⟩
    | (.panic, s) => rw [e1] at h1; exact ⟨c.data.maxAllowedPacket, Prod.mk.inj h1⟩
    | (.ok rs, s) =>
      rw [e1] at h1
      dsimp only
      rw [SM.bind_apply]
      have h2 := DataKept.next (textReader fp mkPlain) rs s
      match e2 : rs.next (textReader fp mkPlain) s with
      | (.err _, s') => rw [e2] at h2; exact ⟨c.data.maxAllowedPacket, Prod.mk.inj (h2.trans h1)⟩
      | (.panic, s') => rw [e2] at h2; exact ⟨c.data.maxAllowedPacket, Prod.mk.inj (h2.trans h1)⟩
      | (.ok (rs', row?), s') =>
        rw [e2] at h2
        have h3 := Prod.mk.inj (h2.trans h1)
        cases row? with
        | none => exact ⟨c.data.maxAllowedPacket, h3⟩
        | some row =>
          dsimp only
          cases limitOf rs'.columns row with
          | err e => exact ⟨c.data.maxAllowedPacket, h3⟩
          | panic => exact ⟨c.data.maxAllowedPacket, h3⟩
          | ok n =>
            rw [SM.ofOut_ok_bind_apply]
            cases n with
            | none => exact ⟨c.data.maxAllowedPacket, h3⟩
            | some n =>
              refine ⟨n, h3.1, ?_⟩
              have h4 := h3.2
              dsimp only at h4
              show ({ s'.data with maxAllowedPacket := n } : ConnData) = _
              rw [h4]
  · exact ⟨c.data.maxAllowedPacket, rfl, rfl⟩

/-- **C55**: after a successful connect and any calls, flag `i` is in use exactly if the server
offered it in the greeting it sent and the connector implements it (the database flag only with a
database configured). -/
theorem C55_used (cr : Crypto) (alnum : Char → Bool) (fp : FloatParse) (c c' : Conn)
    (h : connect cr alnum fp c = (.ok (), c')) :
    ∃ packet c1, readPacket c = (.ok packet, c1) ∧ ∀ (calls : List Call) (i : Nat),
      (runCalls calls c').data.capabilities.toNat.testBit i
        = ((Spec.offered packet).testBit i && Spec.implemented c.options.dbName.isSome i) := by
  unfold connect at h
  obtain ⟨_, c2, h1, h2⟩ := SM.bind_eq_ok.1 h
  obtain ⟨c3, h3, h4⟩ := login_ok h1
  obtain ⟨packet, hs, v, c1, h5, h6, _, rfl⟩ := handleHandshake_ok h3
  refine ⟨packet, c1, h5, fun calls i => ?_⟩
  rw [(runCalls_data calls c').2]
  obtain ⟨n, _, h7⟩ := readSettings_data fp c2
  rw [h2] at h7
  rw [h7]
  have h8 : c2.data.capabilities = hs.capabilities &&& c.options.capabilities := by
    unfold Conn.fixed at h4
    simp only [Prod.mk.injEq] at h4
    exact h4.2.2.2.2.1
  dsimp only
  rw [h8, UInt32.toNat_and, Nat.testBit_and, options_caps, deserialize_caps h6]

/-- The database flag is requested in the login packet exactly if a database is configured. -/
theorem C55_database (auth user : Bytes) (version : UInt16 × UInt16 × UInt16)
    (db : Option Bytes) (p : AuthPlugin) (caps maxPacket : UInt32) :
    (leNat ((handshakeResponse auth version user db (some p) caps maxPacket).take 4)).testBit
      Spec.bitConnectWithDb = db.isSome := by
  unfold handshakeResponse
  simp only [Option.isSome_some, if_true, List.append_assoc]
  rw [List.take_left' (length_leBytes 4 _), leNat_leBytes_of_lt (UInt32.toNat_lt _), loginCaps_testBit]
  rfl

/-- Capability and column flag words are taken as they are: every bit is declared. -/
theorem C55_words (w : UInt32) (f : UInt16) : capTryFrom w = .ok w ∧ colFlagTryFrom f = .ok f := by
  refine ⟨cap_all w, ?_⟩
  unfold colFlagTryFrom
  rw [if_pos]
  have : (~~~ColFlag.ALL) = 0 := by decide
  rw [this, UInt16.and_zero]

/-- A status word is either taken as it is or refused; it is refused exactly if bit 2 is set. -/
theorem C55_status_word (w : UInt16) :
    statusTryFrom w = if w.toNat.testBit 2 then .err (.status w) else .ok w := by
  cases h : w.toNat.testBit 2 with
  | false => rw [status_ok w h]; rfl
  | true =>
    unfold statusTryFrom
    rw [if_neg, if_pos rfl]
    have : (~~~Status.ALL) = 4 := by decide
    rw [this]
    intro hc
    have := congrArg UInt16.toNat hc
    rw [UInt16.toNat_and] at this
    have h2 := congrArg (fun n => n.testBit 2) this
    simp [Nat.testBit_and, h] at h2
    exact absurd h2 (by decide)

/-- **C55 is violated** by the login packet: to a server that offers neither plugin authentication nor
a database at connect time, both flags are announced. -/
theorem C55_claim_violated :
    let g : Spec.Greeting := { C36.greeting "8.0.34" 21 (List.replicate 13 7) with caps := 0x8200 }
    let c := (handleHandshake C28.asciiAlnum (Conn.initial
      { C28.opts with user := "root".toList, dbName := some "shop".toList }
      (rxOf (Spec.frames 0 g.encode)) [])).2
    let req := (doHandshakeResponse C28.crypto c).2.tx.drop 4
    g.caps.toNat.testBit Spec.bitPluginAuth = false ∧
    g.caps.toNat.testBit Spec.bitConnectWithDb = false ∧
    (Spec.readLogin req).map (fun l => (l.caps.testBit Spec.bitPluginAuth,
      l.caps.testBit Spec.bitConnectWithDb)) = some (true, true) := by
  decide +kernel

/-- The flags the client looks at are the documented bits of the word. -/
theorem C55_flags (w : UInt32) :
    hasFlag32 w Cap.CONNECT_WITH_DB = w.toNat.testBit 3 ∧ hasFlag32 w Cap.PROTOCOL_41 = w.toNat.testBit 9 ∧
    hasFlag32 w Cap.TRANSACTIONS = w.toNat.testBit 13 ∧ hasFlag32 w Cap.SECURE_CONNECTION = w.toNat.testBit 15 ∧
    hasFlag32 w Cap.PS_MULTI_RESULTS = w.toNat.testBit 18 ∧ hasFlag32 w Cap.PLUGIN_AUTH = w.toNat.testBit 19 ∧
    hasFlag32 w Cap.CONNECT_ATTRS = w.toNat.testBit 20 ∧
    hasFlag32 w Cap.PLUGIN_AUTH_LENENC_CLIENT_DATA = w.toNat.testBit 21 ∧
    hasFlag32 w Cap.SESSION_TRACK = w.toNat.testBit 23 ∧ hasFlag32 w Cap.DEPRECATE_EOF = w.toNat.testBit 24 ∧
    hasFlag32 w Cap.PROGRESS_OBSOLETE = w.toNat.testBit 29 :=
  ⟨hasFlag32_eq w _ 3 rfl, hasFlag32_eq w _ 9 rfl, hasFlag32_eq w _ 13 rfl, hasFlag32_eq w _ 15 rfl,
    hasFlag32_eq w _ 18 rfl, hasFlag32_eq w _ 19 rfl, hasFlag32_eq w _ 20 rfl, hasFlag32_eq w _ 21 rfl,
    hasFlag32_eq w _ 23 rfl, hasFlag32_eq w _ 24 rfl, hasFlag32_eq w _ 29 rfl⟩

-- the flags are what both sides know, and stay so
example :
    let g : Spec.Greeting := { C36.greeting "8.0.34" 21 (List.replicate 13 7) with caps := 0x0108_8A09 }
    let o := { C28.opts with user := "root".toList, maxAllowedPacket := some 1000 }
    let x := connect C28.crypto C28.asciiAlnum ⟨fun _ => none, fun _ => none⟩
      (Conn.initial o (rxOf (Spec.frames 0 g.encode ++ Spec.frames 2 [0, 0, 0, 2, 0, 0, 0])) [])
    x.1 = .ok () ∧ x.2.data.capabilities = 0x0108_8200 ∧
    (runCalls [.executeQuery "do 1".toList, .prepare "do 2".toList] x.2).data.capabilities = 0x0108_8200 := by
  decide +kernel

end Verif

import Verif.Proofs.Handshake
import Verif.Props.C28_Password

/-!
# C37 The login request is decoded by the server to what the caller configured
-/

namespace Verif

theorem testBit_insert (w m : UInt32) (i j : Nat) (h : m.toNat = 2 ^ j) :
    (w ||| m).toNat.testBit i = (w.toNat.testBit i || decide (j = i)) := by
  rw [UInt32.toNat_or, h, Nat.testBit_or, Nat.testBit_two_pow]

theorem testBit_remove (w m : UInt32) (i j : Nat) (h : m.toNat = 2 ^ j) :
    (w &&& ~~~m).toNat.testBit i = (w.toNat.testBit i && decide (j ≠ i)) := by
  rw [UInt32.toNat_and, Nat.testBit_and, UInt32.toNat_not, h]
  have e : UInt32.size - 1 - 2 ^ j = 2 ^ 32 - (2 ^ j + 1) := by
    unfold UInt32.size; omega
  rw [e, Nat.testBit_two_pow_sub_succ (by rw [← h]; exact m.toNat_lt), Nat.testBit_two_pow]
  by_cases hi : i < 32
  · simp [hi]
  · have : w.toNat.testBit i = false :=
      Nat.testBit_lt_two_pow (Nat.lt_of_lt_of_le w.toNat_lt
        (Nat.pow_le_pow_right (by omega) (by omega)))
    simp [this]

/-- the flags in the packet. -/
def loginFlag (caps : UInt32) (db : Bool) (i : Nat) : Bool :=
  if i = Spec.bitConnectWithDb then db
  else if i = Spec.bitPluginAuth then true
  else if i = Spec.bitConnectAttrs then false
  else caps.toNat.testBit i

theorem loginCaps_testBit (caps : UInt32) (db : Bool) (i : Nat) :
    ((((if db then caps ||| Cap.CONNECT_WITH_DB else caps &&& ~~~Cap.CONNECT_WITH_DB) |||
      Cap.PLUGIN_AUTH) &&& ~~~Cap.CONNECT_ATTRS)).toNat.testBit i = loginFlag caps db i := by
  rw [testBit_remove _ _ i 20 rfl, testBit_insert _ _ i 19 rfl]
  unfold loginFlag Spec.bitConnectWithDb Spec.bitPluginAuth Spec.bitConnectAttrs
  cases db
  · rw [if_neg (by simp), testBit_remove _ _ i 3 rfl]
    by_cases h3 : i = 3
    · subst h3; simp
    · by_cases h19 : i = 19
      · subst h19; simp
      · by_cases h20 : i = 20
        · subst h20; simp
        · rw [if_neg h3, if_neg h19, if_neg h20]
          have e3 : 3 ≠ i := fun h => h3 h.symm
          have e19 : 19 ≠ i := fun h => h19 h.symm
          have e20 : 20 ≠ i := fun h => h20 h.symm
          simp [e3, e19, e20]
  · rw [if_pos rfl, testBit_insert _ _ i 3 rfl]
    by_cases h3 : i = 3
    · subst h3; simp
    · by_cases h19 : i = 19
      · subst h19; simp
      · by_cases h20 : i = 20
        · subst h20; simp
        · rw [if_neg h3, if_neg h19, if_neg h20]
          have e3 : 3 ≠ i := fun h => h3 h.symm
          have e19 : 19 ≠ i := fun h => h19 h.symm
          have e20 : 20 ≠ i := fun h => h20 h.symm
          simp [e3, e19, e20]

theorem readU8Str_put (s r : Bytes) (h : s.length ≤ 255) :
    Spec.readU8Str (putU8Slice s ++ r) = some (s, r) := by
  unfold putU8Slice Spec.readU8Str
  simp only [Nat.min_eq_left h, List.cons_append]
  rw [uint8_toNat_ofNat_of_lt (by omega), List.take_length]
  exact spec_readN_append s r rfl

theorem pluginName_eq (p : AuthPlugin) : p.name = Spec.pluginName p := by
  cases p <;> rfl

theorem pluginName_no_nul (p : AuthPlugin) : ∀ b ∈ Spec.pluginName p, b ≠ 0 := by
  cases p <;> decide +kernel

/-- how the answer can be carried: with a length byte or terminated by a zero byte. -/
def Spec.Carriable (caps : UInt32) (auth : Bytes) : Prop :=
  if caps.toNat.testBit Spec.bitLenencAuth then auth.length < 2 ^ 64
  else if caps.toNat.testBit Spec.bitSecure then auth.length ≤ 255
  else ∀ b ∈ auth, b ≠ 0

/-- The character set a client should name: `utf8mb4_general_ci` (45) is known to servers from
version 5.5.3 on, before that it is `utf8_general_ci` (33).  The components are below 2¹⁶, so versions
are ordered like the numbers they form. -/
def Spec.charsetFor (major minor patch : Nat) : UInt8 :=
  if 5 * 2 ^ 32 + 5 * 2 ^ 16 + 3 ≤ major * 2 ^ 32 + minor * 2 ^ 16 + patch then 45 else 33

theorem charset_eq (v : UInt16 × UInt16 × UInt16) :
    (if versionGe553 v = true then UTF8MB4_GENERAL_CI else UTF8_GENERAL_CI) =
      Spec.charsetFor v.1.toNat v.2.1.toNat v.2.2.toNat := by
  have h1 := v.2.1.toNat_lt
  have h2 := v.2.2.toNat_lt
  unfold Spec.charsetFor
  have : versionGe553 v = true ↔ 5 * 2 ^ 32 + 5 * 2 ^ 16 + 3 ≤
      v.1.toNat * 2 ^ 32 + v.2.1.toNat * 2 ^ 16 + v.2.2.toNat := by
    unfold versionGe553
    simp only [Bool.or_eq_true, Bool.and_eq_true, decide_eq_true_eq, beq_iff_eq]
    omega
  simp only [this]
  rfl

theorem readLogin_response (auth user : Bytes) (version : UInt16 × UInt16 × UInt16)
    (db : Option Bytes) (p : AuthPlugin) (caps maxPacket : UInt32)
    (hu : ∀ b ∈ user, b ≠ 0) (hdb : ∀ d, db = some d → ∀ b ∈ d, b ≠ 0)
    (ha : Spec.Carriable caps auth) :
    ∃ w coll, Spec.readLogin (handshakeResponse auth version user db (some p) caps maxPacket) =
      some { caps := w, maxPacket := maxPacket.toNat, collation := coll, user := user, auth := auth,
             database := db, plugin := some (Spec.pluginName p) } ∧
      (∀ i, w.testBit i = loginFlag caps db.isSome i) ∧
      coll = Spec.charsetFor version.1.toNat version.2.1.toNat version.2.2.toNat := by
  have hw := loginCaps_testBit caps db.isSome
  unfold handshakeResponse
  simp only [Option.isSome_some, if_true]
  generalize (((if db.isSome = true then caps ||| Cap.CONNECT_WITH_DB
    else caps &&& ~~~Cap.CONNECT_WITH_DB) ||| Cap.PLUGIN_AUTH) &&& ~~~Cap.CONNECT_ATTRS) = w at hw ⊢
  generalize hcoll : (if versionGe553 version = true then UTF8MB4_GENERAL_CI else UTF8_GENERAL_CI) = coll
  refine ⟨w.toNat, coll, ?_, hw, ?_⟩
  rotate_left
  · subst hcoll
    exact charset_eq version
  have hlen : hasFlag32 caps Cap.PLUGIN_AUTH_LENENC_CLIENT_DATA = caps.toNat.testBit 21 :=
    hasFlag32_eq _ _ 21 rfl
  have hsec : hasFlag32 caps Cap.SECURE_CONNECTION = caps.toNat.testBit 15 := hasFlag32_eq _ _ 15 rfl
  unfold Spec.readLogin
  simp only [List.append_assoc]
  have hnul : ∀ (s r : Bytes), (∀ b ∈ s, b ≠ 0) → Spec.readNul (putNullSlice s ++ r) = some (s, r) := by
    intro s r hs
    unfold putNullSlice
    rw [List.append_assoc]
    exact spec_readNul_append r hs
  rw [spec_readInt_leBytes _ w.toNat_lt]
  simp only [Option.bind_eq_bind, Option.bind_some]
  rw [spec_readInt_leBytes _ maxPacket.toNat_lt]
  simp only [Option.bind_some]
  rw [spec_readN_append (n := 1) [coll] _ rfl]
  simp only [Option.bind_some]
  rw [spec_readN_append (n := 23) (List.replicate 23 0) _ rfl]
  simp only [Option.bind_some]
  rw [hnul _ _ hu]
  simp only [Option.bind_some]
  have hauth : ∀ r : Bytes, Spec.readAuth w.toNat
      ((if hasFlag32 caps Cap.PLUGIN_AUTH_LENENC_CLIENT_DATA then putLenencSlice auth
          else if hasFlag32 caps Cap.SECURE_CONNECTION then putU8Slice auth else putNullSlice auth) ++ r) =
      some (auth, r) := by
    intro r
    have b21 : w.toNat.testBit Spec.bitLenencAuth = caps.toNat.testBit 21 := hw 21
    have b15 : w.toNat.testBit Spec.bitSecure = caps.toNat.testBit 15 := hw 15
    unfold Spec.Carriable at ha
    unfold Spec.readAuth
    rw [b21, b15, hlen, hsec]
    rw [show Spec.bitLenencAuth = 21 from rfl, show Spec.bitSecure = 15 from rfl] at ha
    by_cases h21 : caps.toNat.testBit 21 = true
    · simp only [h21, if_true] at ha ⊢
      rw [putLenencSlice_eq_spec ha]
      exact spec_readLenencStr_lenencStr r ha
    · simp only [h21] at ha ⊢
      by_cases h15 : caps.toNat.testBit 15 = true
      · simp only [h15, if_true] at ha ⊢
        exact readU8Str_put auth r ha
      · simp only [h15] at ha ⊢
        exact hnul _ _ ha
  rw [hauth]
  simp only [Option.bind_some]
  have b3 : w.toNat.testBit Spec.bitConnectWithDb = db.isSome := hw 3
  have b19 : w.toNat.testBit Spec.bitPluginAuth = true := hw 19
  have b20 : w.toNat.testBit Spec.bitConnectAttrs = false := hw 20
  rw [b3, b19, b20]
  have hp : Spec.readNul p.serialize = some (Spec.pluginName p, []) := by
    have := hnul (Spec.pluginName p) [] (pluginName_no_nul p)
    rw [List.append_nil] at this
    unfold AuthPlugin.serialize
    rw [pluginName_eq]
    exact this
  cases db with
  | none =>
    simp only [Option.isSome_none, List.nil_append]
    simp [Spec.readOptNul, hp]
  | some d =>
    simp only [Option.isSome_some]
    unfold Spec.readOptNul
    rw [hnul _ _ (hdb d rfl)]
    simp [hp]

/-- **C37**: what the connector writes after the greeting is one packet which the server, reading it by
the flags it carries, understands as exactly the configured user and database, the plugin in use
(the configured one or else the server's) and its answer; the flags announce exactly the fields that
are there; the character set is one the server's version knows.  Missing: names with zero bytes, answers that the negotiated form cannot carry. -/
theorem C37_login_partial (cr : Crypto) (c : Conn) (answer : Option AuthData) (hw : c.wfaults = [])
    (hgen : (c.options.authPlugin.getD c.data.authPlugin).genData cr (utf8 c.options.password)
      c.data.nonce c.options = .ok answer)
    (hu : ∀ b ∈ utf8 c.options.user, b ≠ 0)
    (hdb : ∀ d, c.options.dbName = some d → ∀ b ∈ utf8 d, b ≠ 0)
    (ha : Spec.Carriable c.data.capabilities ((answer.map AuthData.bytes).getD [])) :
    ∃ c' req login, doHandshakeResponse cr c = (.ok (), c') ∧
      c'.tx = c.tx ++ Spec.frames c.seqId req ∧ Spec.readLogin req = some login ∧
      login.user = utf8 c.options.user ∧
      login.auth = (answer.map AuthData.bytes).getD [] ∧
      login.database = c.options.dbName.map utf8 ∧
      login.plugin = some (Spec.pluginName (c.options.authPlugin.getD c.data.authPlugin)) ∧
      login.maxPacket = c.data.maxAllowedPacket % 2 ^ 32 ∧
      login.collation = Spec.charsetFor c.data.version.1.toNat c.data.version.2.1.toNat
        c.data.version.2.2.toNat ∧
      (login.caps.testBit Spec.bitConnectWithDb = c.options.dbName.isSome) ∧
      login.caps.testBit Spec.bitPluginAuth = true ∧
      (∀ i, i ≠ Spec.bitConnectWithDb → i ≠ Spec.bitPluginAuth → i ≠ Spec.bitConnectAttrs →
        login.caps.testBit i = c.data.capabilities.toNat.testBit i) := by
  obtain ⟨w, coll, h1, h2, h3⟩ := readLogin_response ((answer.map AuthData.bytes).getD [])
    (utf8 c.options.user) c.data.version (c.options.dbName.map utf8)
    (c.options.authPlugin.getD c.data.authPlugin) c.data.capabilities
    (UInt32.ofNat c.data.maxAllowedPacket) hu
    (by
      intro d hd
      cases hn : c.options.dbName with
      | none => rw [hn] at hd; simp at hd
      | some x =>
        rw [hn] at hd
        simp only [Option.map_some, Option.some.injEq] at hd
        subst hd
        exact hdb x hn) ha
  unfold doHandshakeResponse
  rw [SM.get_bind_apply, hgen, SM.ofOut_ok_bind_apply, writePacket_ok _ _ hw]
  refine ⟨_, _, _, rfl, rfl, h1, rfl, rfl, rfl, rfl, ?_, h3, ?_, ?_, ?_⟩
  · simp
  · rw [h2]
    simp [loginFlag]
  · rw [h2]; rfl
  · intro i h3 h19 h20
    rw [h2]
    unfold loginFlag
    rw [if_neg h3, if_neg h19, if_neg h20]

/-! ### what a server can be told at all -/

theorem readNul_range : ∀ {bs s r : Bytes}, Spec.readNul bs = some (s, r) → ∀ b ∈ s, b ≠ 0
  | [], _, _, h => by cases h
  | b :: bs, s, r, h => by
    unfold Spec.readNul at h
    split at h
    · cases h
      simp
    · rename_i hb
      split at h
      · rename_i s' r' h'
        cases h
        intro x hx
        rcases List.mem_cons.1 hx with hx | hx
        · rw [hx]; exact hb
        · exact readNul_range h' x hx
      · cases h

theorem readAuth_range {caps : UInt32} {w : Nat} {bs s r : Bytes} (h : Spec.readAuth w bs = some (s, r))
    (h21 : w.testBit Spec.bitLenencAuth = caps.toNat.testBit Spec.bitLenencAuth)
    (h15 : w.testBit Spec.bitSecure = caps.toNat.testBit Spec.bitSecure) (hl : s.length < 2 ^ 64) : Spec.Carriable caps s := by
  unfold Spec.readAuth at h
  unfold Spec.Carriable
  rw [h21, h15] at h
  split
  · exact hl
  · rename_i h1
    rw [if_neg h1] at h
    split
    · rename_i h2
      rw [if_pos h2] at h
      match bs, h with
      | n :: bs, h =>
        simp only [Spec.readU8Str, Spec.readN] at h
        split at h
        · cases h
          have := n.toNat_lt
          rw [List.length_take]
          omega
        · cases h
    · rename_i h2
      rw [if_neg h2] at h
      exact readNul_range h

theorem readLogin_range {w : UInt32} {bs : Bytes} {l : Spec.Login} (h : Spec.readLogin (leBytes 4 w.toNat ++ bs) = some l) :
    (∀ b ∈ l.user, b ≠ 0) ∧ (∀ d, l.database = some d → ∀ b ∈ d, b ≠ 0) ∧
      ∃ bs r, Spec.readAuth w.toNat bs = some (l.auth, r) := by
  unfold Spec.readLogin at h
  rw [spec_readInt_leBytes _ w.toNat_lt] at h
  simp only [Option.bind_eq_bind, Option.bind_some, Option.bind_eq_some_iff] at h
  obtain ⟨⟨mp, r1⟩, -, ⟨co, r2⟩, -, ⟨_, r3⟩, -, ⟨us, r4⟩, h4, ⟨au, r5⟩, h5, ⟨db, r6⟩, h6, ⟨pl, r7⟩, -, h⟩ := h
  dsimp only at h h4 h5 h6
  split at h
  · cases h
  · cases h
    refine ⟨readNul_range h4, fun d hd => ?_, r4, r5, h5⟩
    dsimp only at hd
    subst hd
    unfold Spec.readOptNul at h6
    split at h6
    · rw [Option.map_eq_some_iff] at h6
      obtain ⟨⟨x, y⟩, hx, hy⟩ := h6
      cases hy
      exact readNul_range hx
    · cases h6

/-- **C37**, exactly: the server understands user, database and answer as they are exactly if the names have no zero byte and the
negotiated form can carry the answer.  Otherwise the connector sends the request all the same. -/
theorem C37_exact_partial (cr : Crypto) (c : Conn) (answer : Option AuthData) (hw : c.wfaults = [])
    (hgen : (c.options.authPlugin.getD c.data.authPlugin).genData cr (utf8 c.options.password)
      c.data.nonce c.options = .ok answer)
    (hl : ((answer.map AuthData.bytes).getD []).length < 2 ^ 64) :
    ∃ c' req, doHandshakeResponse cr c = (.ok (), c') ∧ c'.tx = c.tx ++ Spec.frames c.seqId req ∧
      ((∃ login, Spec.readLogin req = some login ∧ login.user = utf8 c.options.user ∧
          login.auth = (answer.map AuthData.bytes).getD [] ∧ login.database = c.options.dbName.map utf8) ↔
        (∀ b ∈ utf8 c.options.user, b ≠ 0) ∧ (∀ d, c.options.dbName = some d → ∀ b ∈ utf8 d, b ≠ 0) ∧
          Spec.Carriable c.data.capabilities ((answer.map AuthData.bytes).getD [])) := by
  have hdo : ∃ c', doHandshakeResponse cr c = (.ok (), c') ∧ c'.tx = c.tx ++ Spec.frames c.seqId
      (handshakeResponse ((answer.map AuthData.bytes).getD []) c.data.version (utf8 c.options.user)
        (c.options.dbName.map utf8) (some (c.options.authPlugin.getD c.data.authPlugin)) c.data.capabilities
        (UInt32.ofNat c.data.maxAllowedPacket)) := by
    unfold doHandshakeResponse
    rw [SM.get_bind_apply, hgen, SM.ofOut_ok_bind_apply, writePacket_ok _ _ hw]
    exact ⟨_, rfl, rfl⟩
  obtain ⟨c', h1, h2⟩ := hdo
  refine ⟨c', _, h1, h2, ?_, ?_⟩
  · rintro ⟨login, hr, hu, ha, hd⟩
    have hbits := loginCaps_testBit c.data.capabilities (c.options.dbName.map utf8).isSome
    unfold handshakeResponse at hr
    simp only [Option.isSome_some, if_true] at hr
    generalize (((if (c.options.dbName.map utf8).isSome = true then c.data.capabilities ||| Cap.CONNECT_WITH_DB
      else c.data.capabilities &&& ~~~Cap.CONNECT_WITH_DB) ||| Cap.PLUGIN_AUTH) &&& ~~~Cap.CONNECT_ATTRS) = w at hbits hr
    simp only [List.append_assoc] at hr
    obtain ⟨r1, r2, bs, r, r3⟩ := readLogin_range hr
    rw [hu] at r1
    rw [hd] at r2
    rw [ha] at r3
    refine ⟨r1, fun d h => r2 (utf8 d) (by rw [h]; rfl), ?_⟩
    exact readAuth_range r3 (hbits 21) (hbits 15) hl
  · rintro ⟨hu, hdb, ha⟩
    obtain ⟨w, coll, h1, -⟩ := readLogin_response ((answer.map AuthData.bytes).getD [])
      (utf8 c.options.user) c.data.version (c.options.dbName.map utf8)
      (c.options.authPlugin.getD c.data.authPlugin) c.data.capabilities
      (UInt32.ofNat c.data.maxAllowedPacket) hu
      (by
        intro d hd
        rw [Option.map_eq_some_iff] at hd
        obtain ⟨x, hx, rfl⟩ := hd
        exact hdb x hx) ha
    exact ⟨_, h1, rfl, rfl, rfl⟩

namespace C37

/-- after a greeting of a current server. -/
def conn (o : Options) : Conn :=
  let c := Conn.initial o [] []
  { c with seqId := 1, data := { c.data with capabilities := 0x0104A208, nonce := List.replicate 20 5, maxAllowedPacket := 1024 } }

def request (o : Options) : Bytes := (doHandshakeResponse C28.crypto (conn o)).2.tx.drop 4

end C37

/-- a concrete login. -/
example : (Spec.readLogin (C37.request
      { C28.opts with user := "root".toList, dbName := some "shop".toList })).map
      (fun l => (l.user, l.database, l.plugin, l.maxPacket, l.collation)) =
    some (ascii "root", some (ascii "shop"), some (ascii "mysql_native_password"), 1024, 33) := by
  decide +kernel

/-- versions 8.0.36 and 10.4.2 are after 5.5.3, 5.5.2 and 4.9.9 are not. -/
example : [(8, 0, 36), (10, 4, 2), (5, 5, 3), (5, 6, 0), (5, 5, 2), (4, 9, 9)].map
      (fun v => Spec.charsetFor v.1 v.2.1 v.2.2) = [45, 45, 45, 45, 33, 33] := by
  decide +kernel

/-- **C37 is violated** for a user name with a zero byte: the rest of the name is taken for the
answer. -/
theorem C37_nul_violated :
    (Spec.readLogin (C37.request
      { C28.opts with user := ['a', Char.ofNat 0, 'b'] })).map (fun l => l.user) ≠
    some (utf8 ['a', Char.ofNat 0, 'b']) := by
  decide +kernel

/-- **C37 is violated** for a clear-text password of more than 255 bytes: it is cut off silently. -/
theorem C37_long_violated :
    (Spec.readLogin (C37.request
      { C28.opts with authPlugin := some .clear, allowCleartext := true,
                      password := List.replicate 300 'x' })).map (fun l => l.auth.length) = some 255 := by
  decide +kernel

end Verif

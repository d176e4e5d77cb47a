import Verif.Model.Dormant
import Verif.Spec.Attrs
import Verif.Spec.LoginStream
import Verif.Spec.Response
import Verif.Props.C37_Login

/-!
# C103 Packet code that is not used yet follows the protocol
-/

namespace Verif

/-! ### connection attributes -/

/-- the flags in the packet: `db`, `plugin`, `attrs` announced if present, all others as given. -/
def fullFlag (caps : UInt32) (db plugin attrs : Bool) (i : Nat) : Bool :=
  if i = Spec.bitConnectWithDb then db
  else if i = Spec.bitPluginAuth then plugin
  else if i = Spec.bitConnectAttrs then attrs
  else caps.toNat.testBit i

theorem setFlag_testBit (w m : UInt32) (b : Bool) (i j : Nat) (h : m.toNat = 2 ^ j) :
    (if b = true then w ||| m else w &&& ~~~m).toNat.testBit i =
      if i = j then b else w.toNat.testBit i := by
  cases b
  · rw [if_neg (by simp), testBit_remove _ _ i j h]
    by_cases hij : i = j
    · subst hij; simp
    · have : j ≠ i := fun e => hij e.symm
      simp [hij, this]
  · rw [if_pos rfl, testBit_insert _ _ i j h]
    by_cases hij : i = j
    · subst hij; simp
    · have : j ≠ i := fun e => hij e.symm
      simp [hij, this]

theorem readPairs_put : ∀ (as : List (Bytes × Bytes)) (fuel : Nat), as.length ≤ fuel →
    (∀ a ∈ as, a.1.length < 2 ^ 64 ∧ a.2.length < 2 ^ 64) →
    Spec.readPairs fuel (as.flatMap fun a => Spec.lenencStr a.1 ++ Spec.lenencStr a.2) = some as := by
  intro as
  induction as with
  | nil => intro fuel _ _; cases fuel <;> rfl
  | cons a as ih =>
    intro fuel hf hl
    cases fuel with
    | zero => simp at hf
    | succ fuel =>
      obtain ⟨h1, h2⟩ := hl a (by simp)
      have hne : Spec.lenencStr a.1 ≠ [] := by
        unfold Spec.lenencStr Spec.lenenc
        split
        · simp
        · split
          · simp
          · split <;> simp
      rw [List.flatMap_cons, List.append_assoc]
      generalize hx : (Spec.lenencStr a.1 ++ (Spec.lenencStr a.2 ++
        as.flatMap fun a => Spec.lenencStr a.1 ++ Spec.lenencStr a.2)) = x
      cases x with
      | nil =>
        rw [List.append_eq_nil_iff] at hx
        exact absurd hx.1 hne
      | cons b r =>
        unfold Spec.readPairs
        rw [← hx, spec_readLenencStr_lenencStr _ h1]
        simp only [Option.bind_eq_bind, Option.bind_some]
        rw [spec_readLenencStr_lenencStr _ h2]
        simp only [Option.bind_some]
        rw [ih fuel (by simpa using hf) fun x hx => hl x (by simp [hx])]
        rfl

theorem length_spec_lenenc (n : Nat) : (Spec.lenenc n).length = lenencIntLen n := by
  have h : ∀ k, (Spec.le k n).length = k := fun k => by rw [spec_le_eq, length_leBytes]
  unfold Spec.lenenc lenencIntLen
  by_cases h1 : n ≤ 250
  · rw [if_pos h1, if_pos (show n < 251 by omega)]; rfl
  · rw [if_neg h1, if_neg (show ¬ n < 251 by omega)]
    by_cases h2 : n ≤ 65535
    · rw [if_pos h2, if_pos (show n < 65536 by omega), List.length_cons, h]
    · rw [if_neg h2, if_neg (show ¬ n < 65536 by omega)]
      by_cases h3 : n ≤ 16777215
      · rw [if_pos h3, if_pos (show n < 16777216 by omega), List.length_cons, h]
      · rw [if_neg h3, if_neg (show ¬ n < 16777216 by omega), List.length_cons, h]

theorem length_spec_lenencStr (s : Bytes) : (Spec.lenencStr s).length = lenencSliceLen s := by
  unfold Spec.lenencStr lenencSliceLen
  rw [List.length_append, length_spec_lenenc]

/-- the bytes of the attributes, as strings with lengths. -/
def attrBlock (attrs : List (Str × Str)) : Bytes :=
  attrs.flatMap fun a => Spec.lenencStr (utf8 a.1) ++ Spec.lenencStr (utf8 a.2)

theorem attrBlock_length (attrs : List (Str × Str)) : (attrBlock attrs).length =
    (attrs.map fun a => lenencSliceLen (utf8 a.1) + lenencSliceLen (utf8 a.2)).sum := by
  unfold attrBlock
  induction attrs with
  | nil => rfl
  | cons a as ih =>
    rw [List.flatMap_cons, List.length_append, ih, List.length_append, length_spec_lenencStr,
      length_spec_lenencStr, List.map_cons, List.sum_cons]

theorem attrBlock_mem {attrs : List (Str × Str)} (h : (attrBlock attrs).length < 2 ^ 64) :
    ∀ a ∈ attrs, (utf8 a.1).length < 2 ^ 64 ∧ (utf8 a.2).length < 2 ^ 64 := by
  intro a ha
  unfold attrBlock at h
  induction attrs with
  | nil => simp at ha
  | cons x xs ih =>
    rw [List.flatMap_cons, List.length_append, List.length_append] at h
    unfold Spec.lenencStr at h
    rw [List.length_append, List.length_append] at h
    rcases List.mem_cons.1 ha with rfl | ha
    · omega
    · refine ih ?_ ha
      unfold Spec.lenencStr
      omega

theorem length_le_attrBlock (attrs : List (Str × Str)) : attrs.length ≤ (attrBlock attrs).length := by
  unfold attrBlock
  induction attrs with
  | nil => simp
  | cons x xs ih =>
    rw [List.flatMap_cons, List.length_append, List.length_append, List.length_cons,
      length_spec_lenencStr]
    have : 1 ≤ lenencSliceLen (utf8 x.1) := by
      unfold lenencSliceLen lenencIntLen
      split
      · omega
      · split
        · omega
        · split <;> omega
    omega

theorem putAttrs_eq (attrs : List (Str × Str)) (h : (attrBlock attrs).length < 2 ^ 64) :
    putAttrs attrs = Spec.lenencStr (attrBlock attrs) := by
  unfold putAttrs Spec.lenencStr
  rw [putLenencInt_eq_spec, ← attrBlock_length, uint64_toNat_ofNat_of_lt h]
  congr 1
  have hm := attrBlock_mem h
  unfold attrBlock
  refine List.flatMap_congr fun a ha => ?_
  rw [putLenencSlice_eq_spec (hm a ha).1, putLenencSlice_eq_spec (hm a ha).2]

theorem readAttrs_put (attrs : Option (List (Str × Str)))
    (h : ∀ a, attrs = some a → (attrBlock a).length < 2 ^ 64) :
    Spec.readAttrs attrs.isSome (attrs.elim [] putAttrs) =
      some (attrs.map fun a => a.map fun x => (utf8 x.1, utf8 x.2), []) := by
  cases attrs with
  | none => rfl
  | some a =>
    have h := h a rfl
    have hp := readPairs_put (a.map fun x => (utf8 x.1, utf8 x.2)) (attrBlock a).length
      (by rw [List.length_map]; exact length_le_attrBlock a)
      (by
        intro x hx
        obtain ⟨y, hy, rfl⟩ := List.mem_map.1 hx
        exact attrBlock_mem h y hy)
    rw [List.flatMap_map] at hp
    unfold Spec.readAttrs
    simp only [Option.isSome_some, if_true, Option.elim_some]
    rw [putAttrs_eq a h]
    have := spec_readLenencStr_lenencStr (s := attrBlock a) [] h
    rw [List.append_nil] at this
    rw [this]
    simp only [Option.bind_eq_bind, Option.bind_some]
    unfold attrBlock at hp ⊢
    rw [hp]
    rfl

/-- the model of the part that is used is the model of the whole without attributes. -/
theorem handshakeResponseWith_none (scramble : Bytes) (version : UInt16 × UInt16 × UInt16) (user : Bytes)
    (db : Option Bytes) (plugin : Option AuthPlugin) (caps maxPacket : UInt32) :
    handshakeResponseWith scramble version user db plugin caps none maxPacket =
      handshakeResponse scramble version user db plugin caps maxPacket := by
  unfold handshakeResponseWith handshakeResponse
  cases db <;> cases plugin <;> simp

theorem readNul_putNull (s r : Bytes) (hs : ∀ b ∈ s, b ≠ 0) :
    Spec.readNul (putNullSlice s ++ r) = some (s, r) := by
  unfold putNullSlice
  rw [List.append_assoc]
  exact spec_readNul_append r hs

theorem readOptNul_db (db : Option Bytes) (r : Bytes) : (∀ d, db = some d → ∀ b ∈ d, b ≠ 0) →
    Spec.readOptNul db.isSome (db.elim [] putNullSlice ++ r) =
      some (db, r) := by
  intro hdb
  cases db with
  | none => rfl
  | some d =>
    unfold Spec.readOptNul
    simp only [Option.isSome_some, if_true, Option.elim_some]
    rw [readNul_putNull _ _ (hdb d rfl)]
    rfl

theorem readOptNul_plugin (plugin : Option AuthPlugin) (r : Bytes) :
    Spec.readOptNul plugin.isSome (plugin.elim [] AuthPlugin.serialize ++ r) =
      some (plugin.map Spec.pluginName, r) := by
  cases plugin with
  | none => rfl
  | some p =>
    unfold Spec.readOptNul
    simp only [Option.isSome_some, if_true, Option.elim_some]
    rw [show p.serialize = putNullSlice (Spec.pluginName p) from by
      unfold AuthPlugin.serialize putNullSlice; rw [pluginName_eq]]
    rw [readNul_putNull _ _ (pluginName_no_nul p)]
    rfl

/-- **C103**: a login request with connection attributes is understood by a server as exactly what it
was made of, attributes included, whichever of database, plugin and attributes are given; the flags
announce exactly these.  Only what no request can carry is excluded: zero bytes in names that are
terminated by one, an answer the negotiated form has no room for, attributes of 2⁶⁴ bytes. -/
theorem C103_attributes (auth user : Bytes) (version : UInt16 × UInt16 × UInt16)
    (db : Option Bytes) (plugin : Option AuthPlugin) (caps maxPacket : UInt32)
    (attrs : Option (List (Str × Str)))
    (hu : ∀ b ∈ user, b ≠ 0) (hdb : ∀ d, db = some d → ∀ b ∈ d, b ≠ 0)
    (ha : Spec.Carriable caps auth)
    (hl : ∀ a, attrs = some a →
      (a.flatMap fun x => Spec.lenencStr (utf8 x.1) ++ Spec.lenencStr (utf8 x.2)).length < 2 ^ 64) :
    ∃ login, Spec.readLoginFull
        (handshakeResponseWith auth version user db plugin caps attrs maxPacket) =
      some (login, attrs.map fun a => a.map fun x => (utf8 x.1, utf8 x.2)) ∧
      login.user = user ∧ login.auth = auth ∧ login.database = db ∧
      login.plugin = plugin.map Spec.pluginName ∧ login.maxPacket = maxPacket.toNat ∧
      login.collation = Spec.charsetFor version.1.toNat version.2.1.toNat version.2.2.toNat ∧
      login.caps.testBit Spec.bitConnectWithDb = db.isSome ∧
      login.caps.testBit Spec.bitPluginAuth = plugin.isSome ∧
      login.caps.testBit Spec.bitConnectAttrs = attrs.isSome ∧
      ∀ i, i ≠ Spec.bitConnectWithDb → i ≠ Spec.bitPluginAuth → i ≠ Spec.bitConnectAttrs →
        login.caps.testBit i = caps.toNat.testBit i := by
  unfold handshakeResponseWith
  simp only []
  generalize hw0 : (if attrs.isSome = true then
    (if plugin.isSome = true then
      (if db.isSome = true then caps ||| Cap.CONNECT_WITH_DB else caps &&& ~~~Cap.CONNECT_WITH_DB) |||
        Cap.PLUGIN_AUTH
    else (if db.isSome = true then caps ||| Cap.CONNECT_WITH_DB else caps &&& ~~~Cap.CONNECT_WITH_DB) &&&
        ~~~Cap.PLUGIN_AUTH) ||| Cap.CONNECT_ATTRS
    else (if plugin.isSome = true then
      (if db.isSome = true then caps ||| Cap.CONNECT_WITH_DB else caps &&& ~~~Cap.CONNECT_WITH_DB) |||
        Cap.PLUGIN_AUTH
    else (if db.isSome = true then caps ||| Cap.CONNECT_WITH_DB else caps &&& ~~~Cap.CONNECT_WITH_DB) &&&
        ~~~Cap.PLUGIN_AUTH) &&& ~~~Cap.CONNECT_ATTRS) = w
  have hw : ∀ i, w.toNat.testBit i = fullFlag caps db.isSome plugin.isSome attrs.isSome i := by
    intro i
    rw [← hw0, setFlag_testBit _ _ _ i 20 rfl, setFlag_testBit _ _ _ i 19 rfl,
      setFlag_testBit _ _ _ i 3 rfl]
    unfold fullFlag Spec.bitConnectWithDb Spec.bitPluginAuth Spec.bitConnectAttrs
    by_cases h3 : i = 3
    · subst h3; simp
    · by_cases h19 : i = 19
      · subst h19; simp
      · by_cases h20 : i = 20
        · subst h20; simp
        · simp [h3, h19, h20]
  have hlen : hasFlag32 caps Cap.PLUGIN_AUTH_LENENC_CLIENT_DATA = caps.toNat.testBit 21 :=
    hasFlag32_eq _ _ 21 rfl
  have hsec : hasFlag32 caps Cap.SECURE_CONNECTION = caps.toNat.testBit 15 := hasFlag32_eq _ _ 15 rfl
  generalize hcoll : (if versionGe553 version = true then UTF8MB4_GENERAL_CI else UTF8_GENERAL_CI) = coll
  have hc := charset_eq version
  rw [hcoll] at hc
  have hnul := readNul_putNull
  have hauth : ∀ r : Bytes, Spec.readAuth w.toNat
      ((if hasFlag32 caps Cap.PLUGIN_AUTH_LENENC_CLIENT_DATA then putLenencSlice auth
          else if hasFlag32 caps Cap.SECURE_CONNECTION then putU8Slice auth else putNullSlice auth) ++ r) =
      some (auth, r) := by
    intro r
    have b21 : w.toNat.testBit Spec.bitLenencAuth = caps.toNat.testBit 21 := hw 21
    have b15 : w.toNat.testBit Spec.bitSecure = caps.toNat.testBit 15 := hw 15
    unfold Spec.Carriable at ha
    unfold Spec.readAuth
    rw [b21, b15, hlen, hsec]
    rw [show Spec.bitLenencAuth = 21 from rfl, show Spec.bitSecure = 15 from rfl] at ha
    by_cases h21 : caps.toNat.testBit 21 = true
    · simp only [h21, if_true] at ha ⊢
      rw [putLenencSlice_eq_spec ha]
      exact spec_readLenencStr_lenencStr r ha
    · simp only [h21] at ha ⊢
      by_cases h15 : caps.toNat.testBit 15 = true
      · simp only [h15, if_true] at ha ⊢
        exact readU8Str_put auth r ha
      · simp only [h15] at ha ⊢
        exact hnul _ _ ha
  have hdbr := fun r => readOptNul_db db r hdb
  have hplr := readOptNul_plugin plugin
  have hatt := readAttrs_put attrs fun a ha => hl a ha
  refine ⟨{ caps := w.toNat, maxPacket := maxPacket.toNat, collation := coll, user := user,
            auth := auth, database := db, plugin := plugin.map Spec.pluginName }, ?_, rfl, rfl, rfl,
    rfl, rfl, hc, hw 3, hw 19, hw 20, ?_⟩
  · unfold Spec.readLoginFull
    simp only [List.append_assoc]
    rw [spec_readInt_leBytes _ w.toNat_lt]
    simp only [Option.bind_eq_bind, Option.bind_some]
    rw [spec_readInt_leBytes _ maxPacket.toNat_lt]
    simp only [Option.bind_some]
    rw [spec_readN_append (n := 1) [coll] _ rfl]
    simp only [Option.bind_some]
    rw [spec_readN_append (n := 23) (List.replicate 23 0) _ rfl]
    simp only [Option.bind_some]
    rw [hnul _ _ hu]
    simp only [Option.bind_some]
    rw [hauth]
    simp only [Option.bind_some]
    rw [show w.toNat.testBit Spec.bitConnectWithDb = db.isSome from hw 3, hdbr]
    simp only [Option.bind_some]
    rw [show w.toNat.testBit Spec.bitPluginAuth = plugin.isSome from hw 19, hplr]
    simp only [Option.bind_some]
    rw [show w.toNat.testBit Spec.bitConnectAttrs = attrs.isSome from hw 20, hatt]
    rfl
  · intro i h3 h19 h20
    show w.toNat.testBit i = _
    rw [hw i]
    unfold fullFlag
    rw [if_neg h3, if_neg h19, if_neg h20]

/-- two attributes, one with a value that is not ASCII, no database and no plugin. -/
example : let l := Spec.readLoginFull (handshakeResponseWith [1, 2, 3] (8, 0, 36) (ascii "root") none none
      0x00008200 (some [("_os".toList, "Linux".toList), ("name".toList, "Ä".toList)]) 1024)
    l.map (fun l => (l.1.user, l.1.auth, l.1.caps)) = some (ascii "root", [1, 2, 3], 0x00108200) ∧
    l.map (fun l => (l.1.database, l.1.plugin)) = some (none, none) ∧
    l.map (·.2) = some (some [(ascii "_os", ascii "Linux"), (ascii "name", [0xC3, 0x84])]) := by
  decide +kernel

/-! ### requests to switch -/

theorem AuthSwitch.deserialize_serialize (r : AuthSwitch) :
    runP AuthSwitch.deserialize r.serialize = .ok { r with data := stripNul r.data } := by
  have hfind : (Spec.pluginName r.plugin ++ 0 :: r.data).findIdx (· == 0) =
      (Spec.pluginName r.plugin).length := by
    rw [List.findIdx_append, List.findIdx_eq_length.2 (by
      intro b hb
      simpa using pluginName_no_nul r.plugin b hb)]
    rw [List.findIdx_cons]
    simp
  have hp : AuthPlugin.fromBytes (Spec.pluginName r.plugin) = .ok r.plugin := by
    cases r.plugin <;> decide +kernel
  unfold runP AuthSwitch.deserialize AuthSwitch.serialize AuthPlugin.serialize
  rw [pluginName_eq, List.append_assoc, List.singleton_append]
  have h1 : P.skip 1 (0 :: (Spec.pluginName r.plugin ++ 0 :: r.data)) =
      (.ok (), Spec.pluginName r.plugin ++ 0 :: r.data) := by
    show (Out.ok (), List.drop _ _) = _
    rw [Nat.min_eq_left (by simp)]
    rfl
  have h2 : AuthPlugin.deserialize (Spec.pluginName r.plugin ++ 0 :: r.data) = (.ok r.plugin, r.data) := by
    unfold AuthPlugin.deserialize
    have : P.eatNullSlice (Spec.pluginName r.plugin ++ 0 :: r.data) =
        (.ok (Spec.pluginName r.plugin), r.data) := by
      unfold P.eatNullSlice
      simp only [hfind]
      rw [if_pos (by simp)]
      simp
    rw [SM.bind_of_ok this, hp]
    rfl
  rw [SM.bind_of_ok h1, SM.bind_of_ok h2, SM.bind_of_ok (show P.eatAll r.data = (.ok r.data, []) from rfl)]
  rfl

/-- **C103**: a request to switch that is written and read again names the same plugin, and has the
same data exactly if these do not end with a zero byte. -/
theorem C103_switch (r : AuthSwitch) :
    (∃ d, runP AuthSwitch.deserialize r.serialize = .ok { r with data := d }) ∧
    (runP AuthSwitch.deserialize r.serialize = .ok r ↔ r.data.getLast? ≠ some 0) := by
  rw [AuthSwitch.deserialize_serialize]
  refine ⟨⟨_, rfl⟩, ?_⟩
  unfold stripNul
  by_cases h : r.data.getLast? = some 0
  · rw [if_pos h]
    refine ⟨fun e => ?_, fun hn => absurd h hn⟩
    have e' : r.data.dropLast = r.data := by
      have := congrArg (fun x : Out ProtocolError AuthSwitch => match x with | .ok s => s.data | _ => []) e
      exact this
    have hne : r.data ≠ [] := by rintro hx; rw [hx] at h; simp at h
    have := congrArg List.length e'
    rw [List.length_dropLast] at this
    have : 0 < r.data.length := List.length_pos_iff.2 hne
    omega
  · rw [if_neg h]
    exact ⟨fun _ => h, fun _ => rfl⟩

/-- **C103 is violated**: what is written is never a request to switch in the sense of the protocol,
it starts with the byte of an OK packet, … -/
theorem C103_switch_header_violated (r : AuthSwitch) :
    (∀ p nonce, ¬ Spec.SwitchForm r.serialize p nonce) ∧ r.serialize.head? = some 0 := by
  refine ⟨?_, rfl⟩
  rintro p nonce (⟨h, -⟩ | ⟨t, h, -⟩) <;> simp [AuthSwitch.serialize] at h

/-- … so that this connector, reading it, takes itself for logged in. -/
theorem C103_switch_accepted_violated (cr : Crypto) (r : AuthSwitch) (fuel : Nat) (c c' : Conn)
    (hr : readPacket c = (.ok r.serialize, c')) :
    continueAuth cr (fuel + 1) c = (.ok (), c') := by
  unfold continueAuth
  rw [SM.get_bind_apply]
  refine (SM.bind_of_ok hr).trans ?_
  rw [SM.get_bind_apply]
  rfl

/-- a challenge without a zero byte at the end comes back, one with it does not. -/
example : (runP AuthSwitch.deserialize (AuthSwitch.serialize ⟨.native, [7, 0, 9]⟩) = .ok ⟨.native, [7, 0, 9]⟩) ∧
    runP AuthSwitch.deserialize (AuthSwitch.serialize ⟨.native, [7, 9, 0]⟩) = .ok ⟨.native, [7, 9]⟩ := by
  decide +kernel

/-! ### the end of rows, old form -/

/-- **C103 is violated**: the old end-of-rows packet is read one byte off, whatever it says: the
warnings are the marker and half of the warnings, the status is the other half and half of the
status. -/
theorem C103_old_eof_violated (status warnings : Nat) :
    runP OkPacket.readOldEof (Spec.oldEof status warnings) =
      .ok { affectedRows := 0, lastInsertId := 0
            status := statusTruncate (UInt16.ofNat (warnings / 256 % 256 + 256 * (status % 256)))
            warnings := UInt16.ofNat (0xFE + 256 * (warnings % 256))
            message := none, sessionStateInfo := none } := by
  have e : Spec.oldEof status warnings =
      Spec.le 2 (UInt16.ofNat (0xFE + 256 * (warnings % 256))).toNat ++
        (Spec.le 2 (UInt16.ofNat (warnings / 256 % 256 + 256 * (status % 256))).toNat ++
          [UInt8.ofNat (status / 256)]) := by
    have h1 : (UInt16.ofNat (0xFE + 256 * (warnings % 256))).toNat = 0xFE + 256 * (warnings % 256) := by
      rw [UInt16.toNat_ofNat']; omega
    have h2 : (UInt16.ofNat (warnings / 256 % 256 + 256 * (status % 256))).toNat =
        warnings / 256 % 256 + 256 * (status % 256) := by
      rw [UInt16.toNat_ofNat']; omega
    rw [h1, h2]
    have e2 : ∀ n, Spec.le 2 n = [UInt8.ofNat (n % 256), UInt8.ofNat (n / 256 % 256)] := by
      intro n
      simp [Spec.le, List.range_succ]
    unfold Spec.oldEof
    rw [e2, e2, e2, e2]
    have h3 : (254 + 256 * (warnings % 256)) % 256 = 254 := by omega
    have h4 : (254 + 256 * (warnings % 256)) / 256 % 256 = warnings % 256 := by omega
    have h5 : (warnings / 256 % 256 + 256 * (status % 256)) % 256 = warnings / 256 % 256 := by omega
    have h6 : (warnings / 256 % 256 + 256 * (status % 256)) / 256 % 256 = status % 256 := by omega
    have h7 : UInt8.ofNat (status / 256) = UInt8.ofNat (status / 256 % 256) := by
      apply UInt8.toNat_inj.1
      rw [UInt8.toNat_ofNat', UInt8.toNat_ofNat']
      omega
    rw [h3, h4, h5, h6, h7]
    rfl
  rw [e, spec_le_eq, spec_le_eq]
  unfold runP OkPacket.readOldEof
  rw [SM.bind_of_ok (P.checkedEatU16_le _ _), SM.bind_of_ok (P.checkedEatU16_le _ _)]
  rfl

/-- **C103**, what the function does read: status and warnings without the marker in front. -/
theorem C103_old_eof_partial (status warnings : Nat) (hs : status < 2 ^ 16) (hw : warnings < 2 ^ 16)
    (rest : Bytes) :
    runP OkPacket.readOldEof ((Spec.oldEof status warnings).drop 1 ++ rest) =
      .ok { affectedRows := 0, lastInsertId := 0
            status := statusTruncate (UInt16.ofNat status), warnings := UInt16.ofNat warnings
            message := none, sessionStateInfo := none } := by
  have e : (Spec.oldEof status warnings).drop 1 ++ rest =
      Spec.le 2 (UInt16.ofNat warnings).toNat ++ (Spec.le 2 (UInt16.ofNat status).toNat ++ rest) := by
    rw [UInt16.toNat_ofNat', UInt16.toNat_ofNat', Nat.mod_eq_of_lt hs, Nat.mod_eq_of_lt hw]
    unfold Spec.oldEof
    simp
  rw [e, spec_le_eq, spec_le_eq]
  unfold runP OkPacket.readOldEof
  rw [SM.bind_of_ok (P.checkedEatU16_le _ _), SM.bind_of_ok (P.checkedEatU16_le _ _)]
  rfl

/-- a packet with two warnings and the status "autocommit": 766 warnings are reported. -/
example : runP OkPacket.readOldEof (Spec.oldEof 2 2) =
    .ok { affectedRows := 0, lastInsertId := 0, status := 512, warnings := 766, message := none,
          sessionStateInfo := none } := by
  decide +kernel

/-! ### halves of integers -/

/-- **C103**: the halves of an integer, written and read, make the integer. -/
theorem C103_halves (x : UInt32) (r1 r2 : Bytes) :
    ∃ a b, deserializeLower (serializeLower x ++ r1) = (.ok a, r1) ∧
      deserializeUpper (serializeUpper x ++ r2) = (.ok b, r2) ∧ a ||| b = x ∧
      serializeLower x ++ serializeUpper x = Spec.le 4 x.toNat := by
  have hx := x.toNat_lt
  have hl : (UInt16.ofNat (x &&& 0x0000FFFF).toNat).toNat = x.toNat % 65536 := by
    rw [UInt16.toNat_ofNat', UInt32.toNat_and]
    have : (0x0000FFFF : UInt32).toNat = 2 ^ 16 - 1 := rfl
    rw [this, Nat.and_two_pow_sub_one_eq_mod]
    omega
  have hu : (UInt16.ofNat (x >>> 16).toNat).toNat = x.toNat / 65536 := by
    rw [UInt16.toNat_ofNat', UInt32.toNat_shiftRight]
    have : (16 : UInt32).toNat % 32 = 16 := rfl
    rw [this, Nat.shiftRight_eq_div_pow]
    omega
  refine ⟨UInt32.ofNat (x.toNat % 65536), UInt32.ofNat (x.toNat / 65536) <<< 16, ?_, ?_, ?_, ?_⟩
  · unfold deserializeLower serializeLower
    rw [SM.bind_of_ok (P.eatU16_le _ _), hl]
    rfl
  · unfold deserializeUpper serializeUpper
    rw [SM.bind_of_ok (P.eatU16_le _ _), hu]
    rfl
  · have := caps_halves x
    rw [uint16_toNat_ofNat_of_lt (by omega), uint16_toNat_ofNat_of_lt (by omega)] at this
    exact this
  · unfold serializeLower serializeUpper
    rw [hl, hu, ← spec_le_eq, ← spec_le_eq]
    simp only [Spec.le, List.range_succ, List.range_zero, List.nil_append, List.map_cons, List.map_nil, List.cons_append]
    have h0 : x.toNat % 65536 / 256 ^ 0 % 256 = x.toNat / 256 ^ 0 % 256 := by omega
    have h1 : x.toNat % 65536 / 256 ^ 1 % 256 = x.toNat / 256 ^ 1 % 256 := by omega
    have h2 : x.toNat / 65536 / 256 ^ 0 % 256 = x.toNat / 256 ^ 2 % 256 := by omega
    have h3 : x.toNat / 65536 / 256 ^ 1 % 256 = x.toNat / 256 ^ 3 % 256 := by omega
    rw [h0, h1, h2, h3]

/-- 0xA1B2C3D4. -/
example : serializeLower 0xA1B2C3D4 = [0xD4, 0xC3] ∧ serializeUpper 0xA1B2C3D4 = [0xB2, 0xA1] := by
  decide +kernel

/-! ### readers that panic instead of reporting the end of the packet -/

/-- `u` does what `ch` does, but where `ch` reports that the packet is too short, `u` panics. -/
def Unchecked {α : Type} (u ch : P α) : Prop := ∀ s,
  (∀ s', ch s = (.err .eof, s') → (u s).1 = .panic) ∧ ((ch s).1 ≠ .err .eof → u s = ch s)

theorem Unchecked.rfl' {α : Type} (p : P α) (h : ∀ s s', p s ≠ (.err .eof, s')) : Unchecked p p :=
  fun s => ⟨fun s' e => absurd e (h s s'), fun _ => rfl⟩

theorem Unchecked.pure {α : Type} (a : α) : Unchecked (pure a : P α) (Pure.pure a) :=
  Unchecked.rfl' _ fun s s' e => by cases e

theorem Unchecked.eat (n : Nat) : Unchecked (P.eat n) (P.checkedEat n) := by
  intro s
  unfold P.checkedEat
  by_cases h : n ≤ s.length
  · rw [if_pos h]
    refine ⟨fun s' e => ?_, fun _ => rfl⟩
    unfold P.eat at e
    rw [if_pos h] at e
    cases e
  · rw [if_neg h]
    refine ⟨fun s' _ => ?_, fun e => absurd rfl e⟩
    unfold P.eat
    rw [if_neg h]

theorem Unchecked.bind {α β : Type} {u ch : P α} {v d : α → P β} (h : Unchecked u ch) (k : ∀ a, Unchecked (v a) (d a)) :
    Unchecked (u >>= v) (ch >>= d) := by
  intro s
  obtain ⟨h1, h2⟩ := h s
  rcases hc : ch s with ⟨r, s1⟩
  cases r with
  | ok a =>
    have hu : u s = (.ok a, s1) := by rw [h2 (by rw [hc]; exact fun e => by cases e), hc]
    rw [SM.bind_of_ok hc, SM.bind_of_ok hu]
    exact k a s1
  | err e =>
    rw [SM.bind_of_err hc]
    by_cases he : e = .eof
    · subst he
      have hp := h1 s1 hc
      rcases hu : u s with ⟨r', s2⟩
      rw [hu] at hp
      have hp : r' = .panic := hp
      subst hp
      rw [SM.bind_of_panic hu]
      exact ⟨fun _ _ => rfl, fun e => absurd rfl e⟩
    · have hu : u s = (.err e, s1) := by
        rw [h2 (by rw [hc]; exact fun e' => he (by injection e')), hc]
      rw [SM.bind_of_err hu]
      refine ⟨fun s' e' => ?_, fun _ => rfl⟩
      injection e' with e1 _
      injection e1 with e1
      exact absurd e1 he
  | panic =>
    have hu : u s = (.panic, s1) := by rw [h2 (by rw [hc]; exact fun e => by cases e), hc]
    rw [SM.bind_of_panic hc, SM.bind_of_panic hu]
    exact ⟨fun s' e => (by cases e), fun _ => rfl⟩

theorem Unchecked.eatNat (k : Nat) : Unchecked (P.eatNat k) (P.checkedEatNat k) :=
  (Unchecked.eat k).bind fun _ => Unchecked.pure _

theorem Unchecked.eatLenencInt : Unchecked P.eatLenencInt P.checkedEatLenencInt := by
  refine Unchecked.bind ((Unchecked.eatNat 1).bind fun _ => Unchecked.pure _) fun x => ?_
  split
  · exact Unchecked.pure _
  · split
    · exact ((Unchecked.eatNat 2).bind fun _ => Unchecked.pure _).bind fun _ => Unchecked.pure _
    · split
      · exact ((Unchecked.eatNat 3).bind fun _ => Unchecked.pure _).bind fun _ => Unchecked.pure _
      · split
        · exact (Unchecked.eatNat 8).bind fun _ => Unchecked.pure _
        · exact Unchecked.pure _

theorem Unchecked.utf8 (s : Bytes) : Unchecked
    (match fromUtf8 s with | some x => Pure.pure x | none => SM.fail (.parse .utf8) : P Str)
    (match fromUtf8 s with | some x => Pure.pure x | none => SM.fail (.parse .utf8)) := by
  cases fromUtf8 s with
  | some x => exact Unchecked.pure x
  | none => exact Unchecked.rfl' _ fun t t' e => by cases e

/-- **C103**: the readers without a check do what the ones with a check do, and panic exactly where
those report that the packet is too short: for integers of every width, length-encoded integers,
strings with either kind of length, as bytes and as text. -/
theorem C103_unchecked :
    (∀ k, Unchecked (P.eat k) (P.checkedEat k)) ∧ (∀ k, Unchecked (P.eatNat k) (P.checkedEatNat k)) ∧
    Unchecked P.eatLenencInt P.checkedEatLenencInt ∧ Unchecked P.eatLenencSlice P.checkedEatLenencSlice ∧
    Unchecked P.eatLenencStr P.checkedEatLenencStr ∧ Unchecked P.eatU8Slice P.checkedEatU8Slice ∧
    Unchecked P.eatU8Str P.checkedEatU8Str := by
  have h1 : Unchecked P.eatLenencSlice P.checkedEatLenencSlice :=
    Unchecked.eatLenencInt.bind fun _ => Unchecked.eat _
  have h2 : Unchecked P.eatU8Slice P.checkedEatU8Slice :=
    ((Unchecked.eatNat 1).bind fun _ => Unchecked.pure _).bind fun _ => Unchecked.eat _
  exact ⟨Unchecked.eat, Unchecked.eatNat, Unchecked.eatLenencInt, h1, h1.bind Unchecked.utf8, h2, h2.bind Unchecked.utf8⟩

/-- a string of three bytes of which two are there; one that is there but is not UTF-8. -/
example : (P.eatU8Str [3, 0x61, 0x62]).1 = .panic ∧ (P.checkedEatU8Str [3, 0x61, 0x62]).1 = .err .eof ∧
    (P.eatU8Str [1, 0xFF]).1 = .err (.parse .utf8) ∧ (P.eatLenencStr [2, 0x68, 0x69, 7]) = (.ok ['h', 'i'], [7]) := by
  decide +kernel

end Verif

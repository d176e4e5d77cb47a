import Verif.Proofs.Handshake
import Verif.Props.C28_Password

/-!
# C36 The handshake is decoded exactly
-/

namespace Verif

theorem noncePart2Len_of_lt (len : UInt8) (h : len.toNat < 128) :
    noncePart2Len len = .ok (max 13 (len.toNat - 8)) := by
  unfold noncePart2Len
  simp only []
  rw [if_pos h]

/-- the handshake structure made from a greeting. -/
def Spec.Greeting.decoded (g : Spec.Greeting) : Handshake :=
  { protocolVersion := g.protocol
    serverVersion := g.version
    connectionId := g.id
    capabilities := g.caps
    collation := g.collation
    status := g.status
    authPluginDataLen := g.dataLen
    nonce := g.challenge
    authPlugin := if g.caps.toNat.testBit Spec.bitPluginAuth then some g.plugin else none }

/-- `Handshake.deserialize`, whatever way the second part of the challenge is found. -/
def Handshake.deserializeWith (part2 : UInt32 → UInt8 → P Bytes) : P Handshake := do
  let protocolVersion ← P.checkedEatU8
  let serverVersion ← P.eatNullStr
  P.checkLen 31
  let connectionId ← P.eatU32
  let nonce1 ← P.eat 8
  P.skip 1
  let caps1 ← P.eatU16
  let collation ← P.eatU8
  let st ← P.eatU16
  let status ← SM.ofOut ((statusTryFrom st).mapErr fun e => .parse (.unknownBitflags e))
  let caps2 ← P.eatU16
  let dataLen ← P.eatU8
  P.skip 10
  let caps ← SM.ofOut ((capTryFrom (UInt32.ofNat caps1.toNat ||| UInt32.ofNat caps2.toNat <<< 16)).mapErr
    fun e => .parse (.unknownBitflags e))
  let nonce2 ← part2 caps dataLen
  let plugin ← Handshake.plugin caps
  pure
    { protocolVersion := protocolVersion
      serverVersion := serverVersion
      connectionId := connectionId
      capabilities := caps
      collation := collation
      status := status
      authPluginDataLen := dataLen
      nonce := resize20 (nonce1 ++ nonce2)
      authPlugin := plugin }

theorem deserializeWith_greeting (part2 : UInt32 → UInt8 → P Bytes) (g : Spec.Greeting) (hg : g.WellFormed)
    (hst : g.status.toNat.testBit 2 = false)
    (hn : ∀ r : Bytes, part2 g.caps g.dataLen ((if g.caps.toNat.testBit Spec.bitSecure then g.part2 else []) ++ r) =
      (.ok (if g.caps.toNat.testBit Spec.bitSecure then g.part2 else []), r)) :
    runP (Handshake.deserializeWith part2) g.encode = .ok g.decoded := by
  have hplg : hasFlag32 g.caps Cap.PLUGIN_AUTH = g.caps.toNat.testBit Spec.bitPluginAuth :=
    hasFlag32_eq _ _ 19 rfl
  unfold runP Handshake.deserializeWith Spec.Greeting.encode
  simp only [spec_le_eq, List.append_assoc, List.cons_append, List.nil_append]
  rw [SM.bind_of_ok (P.checkedEatU8_cons _ _)]
  have hv : ∀ r : Bytes, P.eatNullStr (utf8 g.version ++ 0 :: r) = (.ok g.version, r) := by
    intro r
    unfold P.eatNullStr
    rw [SM.bind_of_ok (eatNullSlice_append _ _ hg.version), fromUtf8_utf8]
    rfl
  rw [SM.bind_of_ok (hv _)]
  have h31 : ∀ (x : Bytes), 31 ≤ x.length → P.checkLen 31 x = (.ok (), x) := fun x hx => by
    unfold P.checkLen; rw [if_neg (by omega)]
  rw [SM.bind_of_ok (h31 _ (by
    simp only [List.length_append, List.length_cons, length_leBytes, hg.part1, List.length_replicate]
    omega))]
  rw [SM.bind_of_ok (P.eatU32_le _ _), SM.bind_of_ok (P.eat_append _ _ hg.part1)]
  have hskip : ∀ (k : Nat) (a r : Bytes), a.length = k → P.skip k (a ++ r) = (.ok (), r) := by
    intro k a r hk
    unfold P.skip SM.modify
    dsimp only
    rw [Nat.min_eq_left (by rw [List.length_append]; omega), ← hk, List.drop_left]
  have hskip1 : ∀ r : Bytes, P.skip 1 (0 :: r) = (.ok (), r) := fun r => hskip 1 [0] r rfl
  rw [SM.bind_of_ok (hskip1 _)]
  have hc1 : g.caps.toNat % 65536 = (UInt16.ofNat (g.caps.toNat % 65536)).toNat := by
    rw [uint16_toNat_ofNat_of_lt (by omega)]
  have hc2 : g.caps.toNat / 65536 = (UInt16.ofNat (g.caps.toNat / 65536)).toNat := by
    have := g.caps.toNat_lt
    rw [uint16_toNat_ofNat_of_lt (by omega)]
  rw [hc1, SM.bind_of_ok (P.eatU16_le _ _), SM.bind_of_ok (P.eatU8_cons _ _),
    SM.bind_of_ok (P.eatU16_le _ _), status_ok _ hst]
  simp only [Out.mapErr_ok]
  rw [SM.ofOut_ok_bind_apply, hc2, SM.bind_of_ok (P.eatU16_le _ _), SM.bind_of_ok (P.eatU8_cons _ _),
    SM.bind_of_ok (hskip 10 (List.replicate 10 0) _ rfl), caps_halves, cap_all]
  simp only [Out.mapErr_ok]
  rw [SM.ofOut_ok_bind_apply]
  have hp : Handshake.plugin g.caps
      (if g.caps.toNat.testBit Spec.bitPluginAuth then Spec.pluginName g.plugin ++ [0] else []) =
      (.ok (if g.caps.toNat.testBit Spec.bitPluginAuth then some g.plugin else none), []) := by
    unfold Handshake.plugin
    rw [hplg]
    by_cases hp : g.caps.toNat.testBit Spec.bitPluginAuth = true
    · rw [if_pos hp, if_pos hp, if_pos hp]
      have : ∀ x, P.eatAll x = (.ok x, []) := fun _ => rfl
      rw [SM.bind_of_ok (this _), fromBytes_name]
      rfl
    · rw [if_neg hp, if_neg hp, if_neg hp]
      rfl
  rw [SM.bind_of_ok (hn _), SM.bind_of_ok hp]
  have hnonce : resize20 (g.part1 ++ if g.caps.toNat.testBit Spec.bitSecure then g.part2 else []) =
      g.challenge := by
    unfold resize20 Spec.Greeting.challenge
    by_cases hs : g.caps.toNat.testBit Spec.bitSecure = true
    · rw [if_pos hs, if_pos hs]
      have := hg.part2 hs
      have h1 := hg.part1
      rw [show 20 - (g.part1 ++ g.part2).length = 0 by rw [List.length_append]; omega]
      simp
    · rw [if_neg hs, if_neg hs]
      have h1 := hg.part1
      rw [List.append_nil, List.take_of_length_le (by omega), h1]
  rw [hnonce]
  rfl

theorem deserialize_greeting (g : Spec.Greeting) (hg : g.WellFormed)
    (hst : g.status.toNat.testBit 2 = false) (hlen : g.dataLen.toNat < 128) :
    runP Handshake.deserialize g.encode = .ok g.decoded := by
  refine deserializeWith_greeting Handshake.noncePart2 g hg hst fun r => ?_
  unfold Handshake.noncePart2
  rw [hasFlag32_eq g.caps Cap.SECURE_CONNECTION Spec.bitSecure rfl]
  by_cases hs : g.caps.toNat.testBit Spec.bitSecure = true
  · rw [if_pos hs, if_pos hs, noncePart2Len_of_lt _ hlen, SM.ofOut_ok_bind_apply,
      P.checkedEat_append _ _ (hg.part2 hs)]
  · rw [if_neg hs, if_neg hs]
    rfl

/-- the connector's own flags. -/
theorem options_caps (o : Options) (i : Nat) :
    o.capabilities.toNat.testBit i = Spec.implemented o.dbName.isSome i := by
  have key : ∀ (w : UInt32) (db : Bool), (∀ i < 32, w.toNat.testBit i = Spec.implemented db i) →
      w.toNat.testBit i = Spec.implemented db i := by
    intro w db h
    by_cases hi : i < 32
    · exact h i hi
    · have h1 : w.toNat.testBit i = false :=
        Nat.testBit_lt_two_pow (Nat.lt_of_lt_of_le w.toNat_lt (Nat.pow_le_pow_right (by omega) (by omega)))
      rw [h1]
      unfold Spec.implemented Spec.bitProtocol41 Spec.bitSecure Spec.bitTransactions
        Spec.bitPsMultiResults Spec.bitDeprecateEof Spec.bitPluginAuth Spec.bitConnectWithDb
      have : ¬ i = 3 := by omega
      simp [this]
      omega
  unfold Options.capabilities
  cases o.dbName.isSome
  · exact key _ false (by decide +kernel)
  · exact key _ true (by decide +kernel)

/-- **C36**: for every well-formed greeting whose version text is three numbers separated by dots
(followed by nothing or a separator and anything), what the connector records is exactly what the
server said.  Missing: challenge lengths above 127, the undeclared status bit 2, other version
texts. -/
theorem C36_recorded_partial (alnum : Char → Bool) (g : Spec.Greeting) (a b c : UInt16) (suffix : Str)
    (s : Conn) (rest : List Rx)
    (hd : ∀ c, 48 ≤ c.toNat → c.toNat ≤ 57 → alnum c = true) (hdot : alnum '.' = false)
    (hs : ∀ x r, suffix = x :: r → alnum x = false ∧ x.toNat < 128)
    (hg : g.WellFormed) (hst : g.status.toNat.testBit 2 = false) (hlen : g.dataLen.toNat < 128)
    (hv : g.version = Spec.decText a.toNat ++ '.' :: (Spec.decText b.toNat ++ '.' ::
      (Spec.decText c.toNat ++ suffix)))
    (hrx : s.rx = rxOf (Spec.frames s.seqId g.encode) ++ rest) :
    ∃ s', handleHandshake alnum s = (.ok (), s') ∧ s'.rx = rest ∧ s'.tx = s.tx ∧
      s'.data.id = g.id ∧
      (∀ i, s'.data.capabilities.toNat.testBit i =
        (g.caps.toNat.testBit i && Spec.implemented s.options.dbName.isSome i)) ∧
      s'.data.nonce = g.challenge ∧ s'.data.nonce.length = 20 ∧
      s'.data.authPlugin = (if g.caps.toNat.testBit Spec.bitPluginAuth then g.plugin else .native) ∧
      s'.data.version = (a, b, c) ∧
      s'.data.isMariadb = "MariaDB".toList.isPrefixOf suffix.tail := by
  unfold handleHandshake
  rw [SM.bind_of_ok (readPacket_frames g.encode rest s hrx), deserialize_greeting g hg hst hlen]
  simp only [Spec.Greeting.decoded]
  rw [hv, parseServerVersion_spec alnum a b c suffix hd hdot hs]
  refine ⟨_, rfl, rfl, rfl, rfl, ?_, rfl, ?_, ?_, rfl, rfl⟩
  · intro i
    rw [← options_caps]
    simp only [connDataOf, UInt32.toNat_and, Nat.testBit_and]
  · show g.challenge.length = 20
    unfold Spec.Greeting.challenge
    have h1 := hg.part1
    by_cases hs : g.caps.toNat.testBit Spec.bitSecure = true
    · rw [if_pos hs]
      have := hg.part2 hs
      rw [List.length_take, List.length_append]
      omega
    · rw [if_neg hs]
      simp [h1]
  · simp only [connDataOf]
    by_cases hp : g.caps.toNat.testBit Spec.bitPluginAuth = true
    · rw [if_pos hp, if_pos hp]; rfl
    · rw [if_neg hp, if_neg hp]; rfl

namespace C36

/-- MySQL 8.0.34 with a 20-byte challenge. -/
def greeting (version : String) (dataLen : UInt8) (part2 : Bytes) : Spec.Greeting :=
  { protocol := 10, version := version.toList, id := 77, part1 := [1, 2, 3, 4, 5, 6, 7, 8]
    caps := 0xDFFFFFFF, collation := 255, status := 2, dataLen := dataLen, part2 := part2
    plugin := .sha2 }

def run (g : Spec.Greeting) : Out Error Unit × Conn :=
  handleHandshake C28.asciiAlnum (Conn.initial C28.opts (rxOf (Spec.frames 0 g.encode)) [])

end C36

/-- a concrete greeting. -/
example :
    let r := C36.run (C36.greeting "8.0.34-0ubuntu0.22.04.1" 21 ((List.range 12).map UInt8.ofNat ++ [0]))
    r.1 = .ok () ∧ r.2.data.version = (8, 0, 34) ∧ r.2.data.id = 77 ∧
    r.2.data.nonce = [1, 2, 3, 4, 5, 6, 7, 8, 0, 1, 2, 3, 4, 5, 6, 7, 8, 9, 10, 11] ∧
    r.2.data.authPlugin = .sha2 := by
  decide +kernel

/-- **C36 is violated** by a challenge of 128 bytes: the signed subtraction overflows. -/
theorem C36_data_len_violated :
    (C36.run (C36.greeting "8.0.34" 128 (List.replicate 120 7))).1 = .panic := by
  decide +kernel

/-- **C36 is violated** by a version with a non-ASCII letter: a character position is used as a byte
index, which panics. -/
theorem C36_version_violated :
    (handleHandshake (fun c => C28.asciiAlnum c || 128 ≤ c.toNat) (Conn.initial C28.opts
      (rxOf (Spec.frames 0 (C36.greeting "é.0.1" 21 (List.replicate 13 7)).encode)) [])).1 = .panic := by
  decide +kernel

/-- **C36 is violated** by the version MariaDB 10 servers send (a replication prefix before the real
version): it is recorded as version 5.5.5 and not as MariaDB. -/
theorem C36_mariadb_violated :
    let r := C36.run (C36.greeting "5.5.5-10.6.12-MariaDB" 21 (List.replicate 13 7))
    r.1 = .ok () ∧ r.2.data.version = (5, 5, 5) ∧ r.2.data.isMariadb = false := by
  decide +kernel

end Verif

import Verif.Model.Release
import Verif.Model.Api
import Verif.Props.C36_Handshake
import Verif.Props.C74_TextExact
import Verif.Props.C48_Versions

/-!
# C102: builds without overflow checks

The other claims are about a build with overflow checks.  A release build does the same in every call, unless the build
with checks panics; and what it does then.
-/

namespace Verif

/-- what `x'` is where arithmetic wraps, `x` is with checks: the same, or the checks stop it. -/
def Out.Agrees {ε α : Type} (x x' : Out ε α) : Prop := x = .panic ∨ x' = x

/-- the same for programs: outcome and state. -/
def SM.Agrees {σ ε α : Type} (m m' : SM σ ε α) : Prop := ∀ s, (m s).1 = .panic ∨ m' s = m s

theorem SM.Agrees.refl {σ ε α : Type} (m : SM σ ε α) : m.Agrees m := fun _ => .inr rfl

theorem SM.Agrees.bind {σ ε α β : Type} {m m' : SM σ ε α} {f f' : α → SM σ ε β} (h : m.Agrees m')
    (hf : ∀ a, (f a).Agrees (f' a)) : (m >>= f).Agrees (m' >>= f') := by
  intro s
  cases hm : m s with
  | mk o s1 =>
    rcases h s with hp | he
    · rw [hm] at hp
      cases hp
      exact .inl (by rw [SM.bind_of_panic hm])
    · rw [hm] at he
      cases o with
      | ok a => rw [SM.bind_of_ok hm, SM.bind_of_ok he]; exact hf a s1
      | err e => exact .inr (by rw [SM.bind_of_err hm, SM.bind_of_err he])
      | panic => exact .inl (by rw [SM.bind_of_panic hm])

theorem SM.Agrees.ofOut {σ ε α : Type} {x x' : Out ε α} (h : x.Agrees x') :
    (SM.ofOut x : SM σ ε α).Agrees (SM.ofOut x') := by
  rcases h with h | h
  · subst h
    exact fun _ => .inl rfl
  · subst h
    exact SM.Agrees.refl _

theorem SM.Agrees.attempt {σ ε α : Type} {m m' : SM σ ε α} (h : m.Agrees m') :
    (SM.attempt m).Agrees (SM.attempt m') := by
  intro s
  unfold SM.attempt
  rcases h s with hp | he
  · left
    cases hm : m s with
    | mk o s1 =>
      rw [hm] at hp
      cases hp
      rfl
  · right
    rw [he]

theorem SM.Agrees.runP {α : Type} {m m' : P α} (h : m.Agrees m') (bs : Bytes) :
    (Verif.runP m bs).Agrees (Verif.runP m' bs) := by
  rcases h bs with h | h
  · exact .inl h
  · exact .inr (by unfold Verif.runP; rw [h])

theorem Out.Agrees.bind {ε α β : Type} {x x' : Out ε α} {f f' : α → Out ε β} (h : x.Agrees x')
    (hf : ∀ a, (f a).Agrees (f' a)) : (x >>= f).Agrees (x' >>= f') := by
  rcases h with h | h
  · subst h
    exact .inl rfl
  · subst h
    cases x' with
    | ok a => exact hf a
    | err e => exact .inr rfl
    | panic => exact .inl rfl

theorem Out.Agrees.liftP {α : Type} {x x' : Out ProtocolError α} (h : x.Agrees x') :
    (Verif.liftP x : M α).Agrees (Verif.liftP x') := by
  rcases h with h | h
  · subst h
    exact fun _ => .inl rfl
  · subst h
    exact SM.Agrees.refl _

/-! ### the greeting -/

theorem noncePart2Len_agrees : ∀ len : UInt8, noncePart2Len len =
    if 128 ≤ len.toNat ∧ len.toNat ≤ 135 then .panic else .ok (noncePart2LenRel len) := by
  have key : ∀ n : Fin 256, noncePart2Len (UInt8.ofNat n.val) =
      if 128 ≤ n.val ∧ n.val ≤ 135 then .panic else .ok (noncePart2LenRel (UInt8.ofNat n.val)) := by decide +kernel
  intro len
  have := key ⟨len.toNat, len.toNat_lt⟩
  simpa using this

theorem noncePart2_agrees (caps : UInt32) (len : UInt8) :
    (Handshake.noncePart2 caps len).Agrees (Handshake.noncePart2Rel caps len) := by
  unfold Handshake.noncePart2 Handshake.noncePart2Rel
  split
  · rw [noncePart2Len_agrees]
    split
    · exact fun _ => .inl rfl
    · exact SM.Agrees.refl _
  · exact SM.Agrees.refl _

theorem greeting_agrees : Handshake.deserialize.Agrees Handshake.deserializeRel := by
  unfold Handshake.deserialize Handshake.deserializeRel
  iterate 14 refine SM.Agrees.bind (SM.Agrees.refl _) fun _ => ?_
  exact SM.Agrees.bind (noncePart2_agrees _ _) fun _ => SM.Agrees.refl _

theorem handleHandshake_agrees (alnum : Char → Bool) : (handleHandshake alnum).Agrees (handleHandshakeRel alnum) := by
  unfold handleHandshake handleHandshakeRel
  refine SM.Agrees.bind (SM.Agrees.refl _) fun p => ?_
  rcases greeting_agrees.runP p with h | h
  · rw [h]
    exact fun _ => .inl rfl
  · rw [h]
    exact SM.Agrees.refl _

/-! ### texts -/

theorem scaleRel_of_le (m len : Nat) (h : len % 2 ^ 32 ≤ 6) (hm : m * 10 ^ (6 - len % 2 ^ 32) < 2 ^ 32) :
    scaleRel m len = m * 10 ^ (6 - len % 2 ^ 32) := by
  unfold scaleRel
  rw [show (2 ^ 32 + 6 - len % 2 ^ 32) % 2 ^ 32 = 6 - len % 2 ^ 32 by omega, Nat.mod_eq_of_lt hm]

/-- the fraction in a release build: with 7 to about four thousand million digits nothing is left of it. -/
theorem scaleRel_of_gt (m len : Nat) (h : 6 < len) (hl : len ≤ 2 ^ 32 - 26) : scaleRel m len = 0 := by
  unfold scaleRel
  rw [Nat.mod_eq_of_lt (show len < 2 ^ 32 by omega), Nat.mod_eq_of_lt (show 2 ^ 32 + 6 - len < 2 ^ 32 by omega)]
  obtain ⟨k, hk⟩ : ∃ k, 2 ^ 32 + 6 - len = k + 32 := ⟨2 ^ 32 + 6 - len - 32, by omega⟩
  rw [hk, Nat.pow_add, show (10 : Nat) ^ 32 = 2 ^ 32 * 5 ^ 32 by decide, ← Nat.mul_assoc, Nat.mul_comm _ (2 ^ 32 * 5 ^ 32),
    Nat.mul_assoc]
  exact Nat.mul_mod_right _ _

theorem timeTextInner_agrees (v : Bytes) : (timeTextInner v).Agrees (timeTextInnerRel v) := by
  unfold timeTextInner timeTextInnerRel
  dsimp only
  split
  · exact .inr rfl
  split
  · exact .inr rfl
  refine Out.Agrees.bind (.inr rfl) fun _ => Out.Agrees.bind (.inr rfl) fun _ => Out.Agrees.bind (.inr rfl) fun _ => ?_
  split
  · split
    · exact .inr rfl
    · refine Out.Agrees.bind (.inr rfl) fun m => ?_
      split
      · exact .inl rfl
      · rename_i h
        rw [not_or] at h
        exact .inr (by rw [scaleRel_of_le _ _ (Nat.le_of_not_lt h.1) (Nat.lt_of_not_le h.2)])
  · exact .inr rfl

theorem textValue_agrees (fp : FloatParse) (t : ColumnType) (flags : UInt16) (bs : Bytes) :
    (textValue fp t flags bs).Agrees (textValueRel fp t flags bs) := by
  have hd : (datetimeText bs).Agrees (datetimeTextRel bs) := by
    unfold datetimeText datetimeTextRel
    split
    · exact .inr rfl
    · exact Out.Agrees.bind (.inr rfl) fun _ => Out.Agrees.bind (timeTextInner_agrees _) fun _ => .inr rfl
  have ht : (timeText bs).Agrees (timeTextRel bs) := by
    unfold timeText timeTextRel
    split
    · exact .inr rfl
    · exact Out.Agrees.bind (timeTextInner_agrees _) fun _ => .inr rfl
  cases t
  case timestamp => exact hd
  case datetime => exact hd
  case time => exact ht
  all_goals exact .inr rfl

theorem textRow_agrees (fp : FloatParse) (cols : List Column) : (textRowLoop fp cols).Agrees (textRowLoopRel fp cols) := by
  induction cols with
  | nil => exact SM.Agrees.refl _
  | cons c cs ih =>
    unfold textRowLoop textRowLoopRel
    refine SM.Agrees.bind ?_ fun _ => SM.Agrees.bind ih fun _ => SM.Agrees.refl _
    unfold deserializeText deserializeTextRel
    refine SM.Agrees.bind (SM.Agrees.refl _) fun s => ?_
    cases s with
    | nil => exact SM.Agrees.refl _
    | cons b r =>
      dsimp only
      split
      · exact SM.Agrees.refl _
      · exact SM.Agrees.bind (SM.Agrees.refl _) fun _ => SM.Agrees.ofOut (textValue_agrees _ _ _ _)

/-! ### result sets -/

/-- `rd'` is the reader of a release build where `rd` is that of a build with checks. -/
structure RowReader.Agrees {R : Type} (rd rd' : RowReader R) : Prop where
  row : ∀ p cols, (rd.row p cols).Agrees (rd'.row p cols)
  build : rd'.build = rd.build

theorem RowReader.Agrees.refl {R : Type} (rd : RowReader R) : rd.Agrees rd := ⟨fun _ _ => .inr rfl, rfl⟩

theorem textReader_agrees {R : Type} (fp : FloatParse) (mk : List Column → List Value → Out ParseError R) :
    (textReader fp mk).Agrees (textReaderRel fp mk) := ⟨fun p cols => (textRow_agrees fp cols).runP p, rfl⟩

section
variable {R : Type} {rd rd' : RowReader R} (h : rd.Agrees rd')
include h

theorem next_agrees (rs : RSet) : (rs.next rd).Agrees (rs.next rd') := by
  unfold RSet.next
  split
  · exact SM.Agrees.refl _
  · refine SM.Agrees.bind (SM.Agrees.refl _) fun p => SM.Agrees.bind (SM.Agrees.refl _) fun c =>
      SM.Agrees.bind (SM.Agrees.refl _) fun last => ?_
    split
    · exact SM.Agrees.refl _
    · refine SM.Agrees.bind (h.row _ _).liftP fun row => ?_
      rw [h.build]
      exact SM.Agrees.refl _

theorem collectLoop_agrees (n : Nat) (rs : RSet) : (RSet.collectLoop rd n rs).Agrees (RSet.collectLoop rd' n rs) := by
  induction n generalizing rs with
  | zero => exact SM.Agrees.refl _
  | succ n ih =>
    unfold RSet.collectLoop
    refine SM.Agrees.bind (next_agrees h rs) fun x => ?_
    obtain ⟨rs', r⟩ := x
    cases r with
    | none => exact SM.Agrees.refl _
    | some r => exact SM.Agrees.bind (ih rs') fun _ => SM.Agrees.refl _

theorem collect_agrees (rs : RSet) : (rs.collect rd).Agrees (rs.collect rd') := fun c =>
  collectLoop_agrees h _ rs c

theorem drain_agrees (rs : RSet) : (rs.drain rd).Agrees (rs.drain rd') :=
  SM.Agrees.bind (collect_agrees h rs) fun _ => SM.Agrees.refl _

theorem one_agrees (rs : RSet) : (rs.one rd).Agrees (rs.one rd') := by
  unfold RSet.one
  refine SM.Agrees.bind (next_agrees h rs).attempt fun x => ?_
  cases x with
  | ok x => exact SM.Agrees.bind (drain_agrees h _) fun _ => SM.Agrees.refl _
  | error e => exact SM.Agrees.bind (drain_agrees h _) fun _ => SM.Agrees.refl _

theorem finish_agrees (rs : RSet) : (rs.finish rd).Agrees (rs.finish rd') := by
  unfold RSet.finish
  cases rs.okPacket with
  | some ok => exact SM.Agrees.refl _
  | none => exact SM.Agrees.bind (drain_agrees h _) fun _ => SM.Agrees.refl _

end

/-! ### the claims -/

/-- Rows of the text protocol (those of the binary protocol are read by the same code in both builds): each of the four
ways to read a result set ends the same way and leaves the same connection, or the build with checks panics. -/
theorem C102_rows {R : Type} (fp : FloatParse) (mk : List Column → List Value → Out ParseError R) (rs : RSet) (c : Conn) :
    let d := textReader fp mk
    let r := textReaderRel fp mk
    ((rs.next d c).1 = .panic ∨ rs.next r c = rs.next d c) ∧
    ((rs.collect d c).1 = .panic ∨ rs.collect r c = rs.collect d c) ∧
    ((rs.one d c).1 = .panic ∨ rs.one r c = rs.one d c) ∧
    ((rs.finish d c).1 = .panic ∨ rs.finish r c = rs.finish d c) :=
  have h := textReader_agrees fp mk
  ⟨next_agrees h rs c, collect_agrees h rs c, one_agrees h rs c, finish_agrees h rs c⟩

theorem connect_agrees (cr : Crypto) (alnum : Char → Bool) (fp : FloatParse) :
    (connect cr alnum fp).Agrees (connectRel cr alnum fp) := by
  unfold connect connectRel login loginRel
  refine SM.Agrees.bind (SM.Agrees.bind (handleHandshake_agrees alnum) fun _ => SM.Agrees.refl _) fun _ => ?_
  unfold readSettings readSettingsRel
  refine SM.Agrees.bind (SM.Agrees.refl _) fun c => ?_
  split
  · unfold askLimit askLimitRel
    exact SM.Agrees.bind (SM.Agrees.refl _) fun rs =>
      SM.Agrees.bind (next_agrees (textReader_agrees fp mkPlain) rs) fun _ => SM.Agrees.refl _
  · exact SM.Agrees.refl _

/-- Connecting: the same outcome and connection, or the build with checks panics. -/
theorem C102_connect (cr : Crypto) (alnum : Char → Bool) (fp : FloatParse) (c : Conn) :
    (connect cr alnum fp c).1 = .panic ∨ connectRel cr alnum fp c = connect cr alnum fp c :=
  connect_agrees cr alnum fp c

theorem open_agrees (fp : FloatParse) (ms : List MigList) : (migratorOpen false fp ms).Agrees (migratorOpenRel fp ms) := by
  unfold migratorOpen migratorOpenRel
  rw [Bool.false_and, if_neg (by decide)]
  refine SM.Agrees.bind ?_ fun _ => ?_
  · unfold ensureTable ensureTableRel
    exact SM.Agrees.bind (SM.Agrees.refl _) fun rs =>
      SM.Agrees.bind (collect_agrees (textReader_agrees fp mkPlain) rs) fun _ => SM.Agrees.refl _
  · unfold loadTable loadTableRel
    refine SM.Agrees.bind (SM.Agrees.refl _) fun rs => SM.Agrees.bind (SM.Agrees.refl _) fun c => ?_
    generalize c.rx.length + 2 = n
    generalize (fun _ => [] : Version → List Str) = a
    induction n generalizing rs a with
    | zero => exact SM.Agrees.refl _
    | succ n ih =>
      unfold loadLoop loadLoopRel
      refine SM.Agrees.bind (next_agrees (textReader_agrees fp migrationOf) rs) fun x => ?_
      obtain ⟨rs', k⟩ := x
      cases k with
      | none => exact SM.Agrees.refl _
      | some k =>
        dsimp only
        split
        · exact ih _ _
        · exact SM.Agrees.refl _

/-- `Migrator::new`: the same, or the build with checks panics, … -/
theorem C102_migrator (fp : FloatParse) (ms : List MigList) (c : Conn) :
    (migratorOpen true fp ms c).1 = .panic ∨ migratorOpenRel fp ms c = migratorOpen true fp ms c := by
  by_cases h : ordered ms = true
  · have : migratorOpen true fp ms = migratorOpen false fp ms := by
      unfold migratorOpen
      rw [h]
      rfl
    rw [this]
    exact open_agrees fp ms c
  · left
    unfold migratorOpen
    rw [if_pos (by simp [h])]
    rfl

/-- … as it always does with lists that are not in order, before anything is sent; a release build goes on with them as
with any others. -/
theorem C102_migrator_order (fp : FloatParse) (ms : List MigList)
    (h : ¬ ms.Pairwise fun x y => Spec.before x.version y.version) (c : Conn) :
    migratorOpen true fp ms c = (.panic, c) ∧
      ((migratorOpen false fp ms c).1 = .panic ∨ migratorOpenRel fp ms c = migratorOpen false fp ms c) := by
  refine ⟨?_, open_agrees fp ms c⟩
  have h : ordered ms = false := by
    rw [← Bool.not_eq_true, C48_ordered]
    exact h
  unfold migratorOpen
  rw [h]
  rfl
/-- a call, and the same call in a release build. -/
inductive SameCall : Call → Call → Prop
  | same (x : Call) : SameCall x x
  | next (fp : FloatParse) (mk : List Column → List Value → Out ParseError Unit) (rs : RSet) :
      SameCall (.next (textReader fp mk) rs) (.next (textReaderRel fp mk) rs)
  | collect (fp : FloatParse) (mk : List Column → List Value → Out ParseError Unit) (rs : RSet) :
      SameCall (.collect (textReader fp mk) rs) (.collect (textReaderRel fp mk) rs)
  | one (fp : FloatParse) (mk : List Column → List Value → Out ParseError Unit) (rs : RSet) :
      SameCall (.one (textReader fp mk) rs) (.one (textReaderRel fp mk) rs)
  | finish (fp : FloatParse) (mk : List Column → List Value → Out ParseError Unit) (rs : RSet) :
      SameCall (.finish (textReader fp mk) rs) (.finish (textReaderRel fp mk) rs)

/-- how the calls end, one after the other. -/
def callOuts : List Call → Conn → List (Out Error Unit)
  | [], _ => []
  | x :: xs, c => (x.run c).1 :: callOuts xs (x.run c).2

/-- A whole history of calls: if none of them panics with checks, all of them end the same way without, and the
connection is the same in the end. -/
theorem C102_history (xs ys : List Call) (h : List.Forall₂ SameCall xs ys) (c : Conn)
    (hp : ∀ o ∈ callOuts xs c, o ≠ .panic) : callOuts ys c = callOuts xs c ∧ runCalls ys c = runCalls xs c := by
  induction h generalizing c with
  | nil => exact ⟨rfl, rfl⟩
  | @cons x y xs ys hx _ ih =>
    have ha : x.run.Agrees y.run := by
      cases hx with
      | same => exact SM.Agrees.refl _
      | next fp mk rs => exact SM.Agrees.bind (next_agrees (textReader_agrees fp mk) rs) fun _ => SM.Agrees.refl _
      | collect fp mk rs => exact SM.Agrees.bind (collect_agrees (textReader_agrees fp mk) rs) fun _ => SM.Agrees.refl _
      | one fp mk rs => exact SM.Agrees.bind (one_agrees (textReader_agrees fp mk) rs) fun _ => SM.Agrees.refl _
      | finish fp mk rs => exact SM.Agrees.bind (finish_agrees (textReader_agrees fp mk) rs) fun _ => SM.Agrees.refl _
    have he : y.run c = x.run c := (ha c).resolve_left (hp _ (List.mem_cons_self ..))
    obtain ⟨h1, h2⟩ := ih (x.run c).2 fun o ho => hp o (List.mem_cons_of_mem _ ho)
    unfold callOuts runCalls
    rw [he, h1, h2]
    exact ⟨rfl, rfl⟩

/-! ### what a release build does where the checks stop the other -/

/-- The greeting: the build with checks panics on a challenge of 128 to 135 bytes, which a release build takes as the
protocol has it, … -/
theorem C102_greeting (g : Spec.Greeting) (hg : g.WellFormed) (hst : g.status.toNat.testBit 2 = false)
    (hlen : g.dataLen.toNat < 136) :
    runP Handshake.deserializeRel g.encode = .ok g.decoded ∧
      (runP Handshake.deserialize g.encode = .panic ↔
        128 ≤ g.dataLen.toNat ∧ g.caps.toNat.testBit Spec.bitSecure = true) := by
  have hr : runP Handshake.deserializeRel g.encode = .ok g.decoded := by
    refine deserializeWith_greeting Handshake.noncePart2Rel g hg hst fun r => ?_
    unfold Handshake.noncePart2Rel
    rw [hasFlag32_eq g.caps Cap.SECURE_CONNECTION Spec.bitSecure rfl]
    by_cases hs : g.caps.toNat.testBit Spec.bitSecure = true
    · have hl : noncePart2LenRel g.dataLen = max 13 (g.dataLen.toNat - 8) := by
        have key : ∀ n : Fin 136, noncePart2LenRel (UInt8.ofNat n.val) = max 13 (n.val - 8) := by decide +kernel
        have := key ⟨g.dataLen.toNat, hlen⟩
        simpa using this
      rw [if_pos hs, if_pos hs, hl, P.checkedEat_append _ _ (hg.part2 hs)]
    · rw [if_neg hs, if_neg hs]
      rfl
  refine ⟨hr, ?_⟩
  constructor
  · intro hp
    refine Decidable.byContradiction fun hc => ?_
    rw [not_and_or] at hc
    have : runP Handshake.deserialize g.encode = .ok g.decoded := by
      rcases hc with hc | hc
      · exact deserialize_greeting g hg hst (by omega)
      · refine deserializeWith_greeting Handshake.noncePart2 g hg hst fun r => ?_
        unfold Handshake.noncePart2
        rw [hasFlag32_eq g.caps Cap.SECURE_CONNECTION Spec.bitSecure rfl, if_neg hc, if_neg hc]
        rfl
    rw [this] at hp
    cases hp
  · rintro ⟨hl, hs⟩
    rcases greeting_agrees.runP g.encode with h | h
    · exact h
    · rw [hr] at h
      obtain ⟨p1, p2, rest, hf⟩ := (C73_greeting _ _).1 h.symm
      have h2 := hf.part2
      unfold Spec.SecondPart at h2
      rw [show g.decoded.capabilities = g.caps from rfl, if_pos hs] at h2
      rw [show g.decoded.authPluginDataLen = g.dataLen from rfl] at h2
      omega

/-- … and longer challenges both builds take to be 13 bytes long. -/
theorem C102_greeting_long (caps : UInt32) (len : UInt8) (h : 136 ≤ len.toNat) (s : Bytes) :
    Handshake.noncePart2Rel caps len s = Handshake.noncePart2 caps len s ∧ noncePart2LenRel len = 13 := by
  have hl : noncePart2LenRel len = 13 := by
    have key : ∀ n : Fin 256, 136 ≤ n.val → noncePart2LenRel (UInt8.ofNat n.val) = 13 := by decide +kernel
    have := key ⟨len.toNat, len.toNat_lt⟩ h
    simpa using this
  refine ⟨?_, hl⟩
  rcases noncePart2_agrees caps len s with h1 | h1
  · unfold Handshake.noncePart2 at h1
    split at h1
    · rw [noncePart2Len_agrees, if_neg (by omega)] at h1
      rw [SM.ofOut_ok_bind_apply] at h1
      unfold P.checkedEat at h1
      split at h1
      · unfold P.eat at h1
        rw [if_pos (by assumption)] at h1
        cases h1
      · cases h1
    · cases h1
  · exact h1

/-- what `timeTextInnerRel` does with the parts. -/
def clockPartsRel (invalid : ProtocolError) (hd md sd f : Bytes) :
    Out ProtocolError (UInt32 × UInt8 × UInt8 × UInt8 × UInt32) := do
  let hours ← Out.ofOption invalid (btou 4294967295 hd)
  let minutes ← Out.ofOption invalid (btou 255 md)
  let seconds ← Out.ofOption invalid (btou 255 sd)
  let micros ←
    if 1 < f.length then
      if f[0]? ≠ some 0x2E then .err invalid
      else do
        let buf := f.drop 1
        let m ← Out.ofOption invalid (btou 4294967295 buf)
        pure (scaleRel m buf.length)
    else pure 0
  pure (UInt32.ofNat (hours / 24), UInt8.ofNat (hours % 24), UInt8.ofNat minutes,
    UInt8.ofNat seconds, UInt32.ofNat micros)

theorem timeTextInnerRel_parts (hd md sd f : Bytes) (hh : (0x3A : UInt8) ∉ hd) (hm : md.length = 2)
    (hs : sd.length = 2) :
    timeTextInnerRel (hd ++ [0x3A] ++ md ++ [0x3A] ++ sd ++ f) =
      clockPartsRel (.parse (.invalidValue .time (hd ++ [0x3A] ++ md ++ [0x3A] ++ sd ++ f))) hd md sd f := by
  obtain ⟨m1, m2, rfl⟩ := List.length_eq_two.1 hm
  obtain ⟨s1, s2, rfl⟩ := List.length_eq_two.1 hs
  have hi : (hd ++ [0x3A] ++ [m1, m2] ++ [0x3A] ++ [s1, s2] ++ f).findIdx (· == 0x3A) = hd.length := by
    simp only [List.append_assoc, List.cons_append, List.nil_append]
    rw [List.findIdx_append]
    have : ¬ hd.findIdx (· == 0x3A) < hd.length := by
      rw [List.findIdx_lt_length]
      rintro ⟨x, hx, h0⟩
      rw [beq_iff_eq] at h0
      exact hh (h0 ▸ hx)
    rw [if_neg this, List.findIdx_cons]
    simp
  unfold timeTextInnerRel clockPartsRel
  dsimp only
  rw [hi]
  have hl : (hd ++ [0x3A] ++ [m1, m2] ++ [0x3A] ++ [s1, s2] ++ f).length = hd.length + 6 + f.length := by
    simp
    omega
  have g3 : (hd ++ [0x3A] ++ [m1, m2] ++ [0x3A] ++ [s1, s2] ++ f)[hd.length + 3]? = some 0x3A := by
    simp
  have g6 : (hd ++ [0x3A] ++ [m1, m2] ++ [0x3A] ++ [s1, s2] ++ f)[hd.length + 6]? = f[0]? := by
    simp only [List.append_assoc, List.cons_append, List.nil_append]
    rw [List.getElem?_append_right (by omega), Nat.add_sub_cancel_left]
    rfl
  have t1 : (hd ++ [0x3A] ++ [m1, m2] ++ [0x3A] ++ [s1, s2] ++ f).take hd.length = hd := by
    simp
  have d1 : ((hd ++ [0x3A] ++ [m1, m2] ++ [0x3A] ++ [s1, s2] ++ f).drop (hd.length + 1)).take 2 = [m1, m2] := by
    simp
  have d4 : ((hd ++ [0x3A] ++ [m1, m2] ++ [0x3A] ++ [s1, s2] ++ f).drop (hd.length + 4)).take 2 = [s1, s2] := by
    simp
  have d7 : (hd ++ [0x3A] ++ [m1, m2] ++ [0x3A] ++ [s1, s2] ++ f).drop (hd.length + 7) = f.drop 1 := by
    simp
  rw [if_neg (by omega), if_neg (by rw [g3]; simp), t1, d1, d4, d7, g6, hl]
  have e : (hd.length + 7 < hd.length + 6 + f.length) = (1 < f.length) := by
    apply propext
    omega
  simp only [e]

/-- A time with more than six digits after the point: the build with checks panics, a release build drops the fraction
altogether, … -/
theorem C102_fraction (fp : FloatParse) (flags : UInt16) (hd md sd r : Bytes) (h m s n : Nat) (h1 : Spec.Numeral hd h)
    (hh : h < 2 ^ 32) (lm : md.length = 2) (h2 : Spec.Numeral md m) (ls : sd.length = 2) (h3 : Spec.Numeral sd s)
    (h4 : Spec.Numeral r n) (hn : n < 2 ^ 32) (hl : 6 < r.length) (hr : r.length ≤ 2 ^ 32 - 26) :
    let text := hd ++ [0x3A] ++ md ++ [0x3A] ++ sd ++ 0x2E :: r
    textValue fp .time flags text = .panic ∧
      textValueRel fp .time flags text = .ok (.time false (UInt32.ofNat (h / 24)) (UInt8.ofNat (h % 24)) (UInt8.ofNat m)
        (UInt8.ofNat s) 0) := by
  intro text
  have l2 := numeral_lt h2
  have l3 := numeral_lt h3
  rw [lm] at l2
  rw [ls] at l3
  obtain ⟨b, t, rfl⟩ : ∃ b t, hd = b :: t := by
    cases hd with
    | nil => exact absurd rfl h1.1
    | cons b t => exact ⟨b, t, rfl⟩
  have hb : b ≠ 0x2D := by rintro rfl; exact absurd (numeral_head h1).1 (by decide)
  have ht : text = b :: (t ++ [0x3A] ++ md ++ [0x3A] ++ sd ++ 0x2E :: r) := by simp [text]
  constructor
  · show timeText text = .panic
    have hp : timeTextInner text = .panic := (timeTextInner_panic _).2 ⟨_, md, sd, r, h, m, s, n, h1, hh, lm, h2, ls, h3,
      h4, hn, hl, .inl (by rw [Nat.mod_eq_of_lt (by omega)]; exact hl), rfl⟩
    rw [ht] at hp ⊢
    unfold timeText
    dsimp only
    rw [if_neg hb, hp]
    rfl
  · show timeTextRel text = _
    have hp : timeTextInnerRel text = .ok (UInt32.ofNat (h / 24), UInt8.ofNat (h % 24), UInt8.ofNat m, UInt8.ofNat s, 0) := by
      show timeTextInnerRel (_ ++ _) = _
      rw [timeTextInnerRel_parts _ md sd _ (numeral_noColon h1) lm ls]
      unfold clockPartsRel
      have hf : 1 < (0x2E :: r : Bytes).length := by
        rw [List.length_cons]
        omega
      rw [(btou_iff _ _ _).2 ⟨h1, by omega⟩, (btou_iff _ _ _).2 ⟨h2, by omega⟩, (btou_iff _ _ _).2 ⟨h3, by omega⟩]
      simp only [Out.ofOption_some, Out.ok_bind]
      rw [if_pos hf, if_neg (by simp), List.drop_one, List.tail_cons, (btou_iff _ _ _).2 ⟨h4, by omega⟩]
      simp only [Out.ofOption_some, Out.ok_bind]
      rw [scaleRel_of_gt n r.length hl hr]
      rfl
    rw [ht] at hp ⊢
    unfold timeTextRel
    dsimp only
    rw [if_neg hb, hp, beq_eq_false_iff_ne.2 hb]
    rfl

/-- … however much it was: from `00:00:00.9999999` nothing is left. -/
theorem C102_fraction_lost (fp : FloatParse) (flags : UInt16) :
    textValueRel fp .time flags [0x30, 0x30, 0x3A, 0x30, 0x30, 0x3A, 0x30, 0x30, 0x2E, 0x39, 0x39, 0x39, 0x39, 0x39, 0x39,
      0x39] = .ok (.time false 0 0 0 0 0) :=
  (C102_fraction fp flags [0x30, 0x30] [0x30, 0x30] [0x30, 0x30] [0x39, 0x39, 0x39, 0x39, 0x39, 0x39, 0x39] 0 0 0 9999999
    ⟨by decide, by decide, by decide⟩ (by decide) rfl ⟨by decide, by decide, by decide⟩ rfl
    ⟨by decide, by decide, by decide⟩ ⟨by decide, by decide, by decide⟩ (by decide) (by decide) (by decide)).2

/-- Writing a value: the same text, or the build with checks panics, which it does only with a time of 2^32 hours or
more; … -/
theorem C102_display (ff : FloatFmt) (v : Value) :
    display ff v = displayRel ff v ∨ (display ff v = .panic ∧
      ∃ neg days h m s us, v = .time neg days h m s us ∧ 2 ^ 32 ≤ days.toNat * 24 + h.toNat ∧
        displayRel ff v = display ff (.time neg (UInt32.ofNat ((days.toNat * 24 + h.toNat) % 2 ^ 32 / 24))
          (UInt8.ofNat ((days.toNat * 24 + h.toNat) % 2 ^ 32 % 24)) m s us)) := by
  cases v
  case time neg days h m s us =>
    have hsum : (days * 24 + UInt32.ofNat h.toNat).toNat = (days.toNat * 24 + h.toNat) % 2 ^ 32 := by
      have := h.toNat_lt
      rw [UInt32.toNat_add, UInt32.toNat_mul, uint32_toNat_ofNat_of_lt (by omega)]
      show (days.toNat * 24 % 2 ^ 32 + h.toNat) % 2 ^ 32 = _
      omega
    have hx : ∀ x : UInt32, x = UInt32.ofNat x.toNat := fun x => by simp
    unfold display displayRel
    dsimp only
    rw [hx (days * 24 + _), hsum]
    by_cases hb : days.toNat * 24 + h.toNat < 2 ^ 32
    · left
      rw [if_pos hb, Nat.mod_eq_of_lt hb]
    · right
      refine ⟨if_neg hb, neg, days, h, m, s, us, rfl, by omega, ?_⟩
      generalize (days.toNat * 24 + h.toNat) % 2 ^ 32 = y at *
      have hy : y < 2 ^ 32 := by
        rw [← hsum]
        exact UInt32.toNat_lt _
      rw [uint32_toNat_ofNat_of_lt (show y / 24 < 2 ^ 32 by omega), ofNat8 (show y % 24 < 256 by omega),
        Nat.div_add_mod', if_pos hy]
  all_goals exact .inl rfl

/-- … a release build writes another time then. -/
theorem C102_display_wraps (ff : FloatFmt) :
    displayRel ff (.time false 178956971 0 0 0 0) = displayRel ff (.time false 0 8 0 0 0) := by
  show Out.ok _ = Out.ok _
  exact congrArg Out.ok (by decide +kernel)

/-! ### concrete cases -/

/-- `-26:02:03.25` in both builds. -/
example : textValue ⟨fun _ => none, fun _ => none⟩ .time 0
      [0x2D, 0x32, 0x36, 0x3A, 0x30, 0x32, 0x3A, 0x30, 0x33, 0x2E, 0x32, 0x35] = .ok (.time true 1 2 2 3 250000) ∧
    textValueRel ⟨fun _ => none, fun _ => none⟩ .time 0
      [0x2D, 0x32, 0x36, 0x3A, 0x30, 0x32, 0x3A, 0x30, 0x33, 0x2E, 0x32, 0x35] = .ok (.time true 1 2 2 3 250000) := by
  decide +kernel

/-- a greeting with a challenge of 130 bytes. -/
example : (⟨10, "8.0.1".toList, 7, List.replicate 8 1, 0x88200, 33, 2, 130, List.replicate 122 2, .native⟩ :
    Spec.Greeting).WellFormed := by
  refine ⟨?_, rfl, fun _ => rfl⟩
  decide +kernel

example : runP Handshake.deserialize (⟨10, "8.0.1".toList, 7, List.replicate 8 1, 0x88200, 33, 2, 130,
      List.replicate 122 2, .native⟩ : Spec.Greeting).encode = .panic ∧
    runP Handshake.deserializeRel (⟨10, "8.0.1".toList, 7, List.replicate 8 1, 0x88200, 33, 2, 130,
      List.replicate 122 2, .native⟩ : Spec.Greeting).encode =
      .ok ⟨10, "8.0.1".toList, 7, 0x88200, 33, 2, 130, List.replicate 8 1 ++ List.replicate 12 2, some .native⟩ := by
  decide +kernel

/-- a row with a time, read in both builds; the row after it stops only the build with checks. -/
example :
    let col : Column := ⟨[], [], [], [], .time, 0⟩
    let fp : FloatParse := ⟨fun _ => none, fun _ => none⟩
    readTextRow fp [8, 0x30, 0x30, 0x3A, 0x30, 0x32, 0x3A, 0x30, 0x33] [col] = .ok [.time false 0 0 2 3 0] ∧
    readTextRowRel fp [8, 0x30, 0x30, 0x3A, 0x30, 0x32, 0x3A, 0x30, 0x33] [col] = .ok [.time false 0 0 2 3 0] ∧
    readTextRow fp [16, 0x30, 0x30, 0x3A, 0x30, 0x32, 0x3A, 0x30, 0x33, 0x2E, 0x30, 0x30, 0x30, 0x30, 0x30, 0x30, 0x31] [col] =
      .panic := by
  decide +kernel

/-- lists out of order. -/
example : ¬ [(⟨⟨2, 0, 0⟩, []⟩ : MigList), ⟨⟨1, 0, 0⟩, []⟩].Pairwise fun x y => Spec.before x.version y.version := by
  rw [← C48_ordered]
  decide +kernel

end Verif

import Verif.Proofs.Unseen
import Verif.Proofs.Handshake
import Verif.Props.C55_Capabilities
import Verif.Props.C06_LongData
import Verif.Props.C12_Iteration

/-!
# C95: what a connection depends on once it is there

After the login no call looks at the options (user, password, plugin, …) or at what the handshake told (challenge, version,
keys, packet limit), except for two bits of the capabilities. So nothing the server sends later can get the password
out of the client. The other side of it: the packet limit is not looked at either.
-/

namespace Verif

/-- two connections that have the same to read, the same faults ahead, and stand at the same place. -/
structure SameLine (c₁ c₂ : Conn) : Prop where
  rx : c₂.rx = c₁.rx
  wfaults : c₂.wfaults = c₁.wfaults
  seqId : c₂.seqId = c₁.seqId
  pending : c₂.pendingResult = c₁.pendingResult
  tx : c₂.tx = c₁.tx

theorem SameLine.eq {c₁ c₂ : Conn} (h : SameLine c₁ c₂) : c₂ = c₁.other c₂.data c₂.options := by
  obtain ⟨h1, h2, h3, h4, h5⟩ := h
  cases c₁; cases c₂
  subst h1 h2 h3 h4 h5
  rfl

/-- what is unseen makes no difference. -/
theorem Unseen.same {X : Type} {f : Conn → X × Conn} (hf : Unseen f) {c₁ c₂ : Conn} (h : SameLine c₁ c₂)
    (ha : Alike c₂.data.capabilities c₁.data.capabilities) :
    (f c₂).1 = (f c₁).1 ∧ SameLine (f c₁).2 (f c₂).2 ∧ (f c₂).2.data = c₂.data ∧ (f c₂).2.options = c₂.options := by
  have e := hf c₂.data c₂.options c₁ ha
  rw [← h.eq] at e
  rw [e]
  exact ⟨rfl, ⟨rfl, rfl, rfl, rfl, rfl⟩, rfl, rfl⟩

/-- Whatever is done with a connection: what the caller sees and what is written are the same with any other options and any
other data of the handshake, if the server says the same of four capabilities; and neither is changed by it. -/
theorem C95_session {R : Type} (xs : List (Step R)) (c₁ c₂ : Conn) (h : SameLine c₁ c₂)
    (ha : Alike c₂.data.capabilities c₁.data.capabilities) :
    (runSteps xs c₂).1 = (runSteps xs c₁).1 ∧ SameLine (runSteps xs c₁).2 (runSteps xs c₂).2 ∧
      (runSteps xs c₂).2.data = c₂.data ∧ (runSteps xs c₂).2.options = c₂.options :=
  (Unseen.steps xs).same h ha

/-- the same for inserting and updating models, … -/
theorem C95_models (m : ActiveModel) (id : Value) (primary : Str) (c₁ c₂ : Conn) (h : SameLine c₁ c₂)
    (ha : Alike c₂.data.capabilities c₁.data.capabilities) :
    ((m.insert c₂).1 = (m.insert c₁).1 ∧ SameLine (m.insert c₁).2 (m.insert c₂).2) ∧
    ((m.update id primary c₂).1 = (m.update id primary c₁).1 ∧
      SameLine (m.update id primary c₁).2 (m.update id primary c₂).2) :=
  ⟨⟨((Unseen.insert m).same h ha).1, ((Unseen.insert m).same h ha).2.1⟩,
    ⟨((Unseen.update id primary m).same h ha).1, ((Unseen.update id primary m).same h ha).2.1⟩⟩

/-- … for the start of a migrator, and for saying goodbye. -/
theorem C95_others (debug : Bool) (fp : FloatParse) (ms : List MigList) (c₁ c₂ : Conn) (h : SameLine c₁ c₂)
    (ha : Alike c₂.data.capabilities c₁.data.capabilities) :
    ((migratorOpen debug fp ms c₂).1 = (migratorOpen debug fp ms c₁).1 ∧
      SameLine (migratorOpen debug fp ms c₁).2 (migratorOpen debug fp ms c₂).2) ∧
    ((disconnect c₂).1 = (disconnect c₁).1 ∧ SameLine (disconnect c₁).2 (disconnect c₂).2) :=
  ⟨⟨((Unseen.migratorOpen debug fp ms).same h ha).1, ((Unseen.migratorOpen debug fp ms).same h ha).2.1⟩,
    ⟨(Unseen.disconnect.same h ha).1, (Unseen.disconnect.same h ha).2.1⟩⟩

/-- a connection that was made: two of the four are never used, the other two are what the greeting said. -/
theorem C95_two_bits (cr : Crypto) (alnum : Char → Bool) (fp : FloatParse) (c c' : Conn)
    (h : connect cr alnum fp c = (.ok (), c')) :
    ∃ packet c1, readPacket c = (.ok packet, c1) ∧
      hasFlag32 c'.data.capabilities Cap.SESSION_TRACK = false ∧
      hasFlag32 c'.data.capabilities Cap.PROGRESS_OBSOLETE = false ∧
      hasFlag32 c'.data.capabilities Cap.DEPRECATE_EOF = (Spec.offered packet).testBit 24 ∧
      hasFlag32 c'.data.capabilities Cap.PROTOCOL_41 = (Spec.offered packet).testBit 9 := by
  obtain ⟨packet, c1, h1, h2⟩ := C55_used cr alnum fp c c' h
  have h2 := h2 []
  refine ⟨packet, c1, h1, ?_, ?_, ?_, ?_⟩
  · rw [hasFlag32_eq _ _ 23 rfl]
    refine (h2 23).trans ?_
    rw [show Spec.implemented c.options.dbName.isSome 23 = false by cases c.options.dbName.isSome <;> decide, Bool.and_false]
  · rw [hasFlag32_eq _ _ 29 rfl]
    refine (h2 29).trans ?_
    rw [show Spec.implemented c.options.dbName.isSome 29 = false by cases c.options.dbName.isSome <;> decide, Bool.and_false]
  · rw [hasFlag32_eq _ _ 24 rfl]
    refine (h2 24).trans ?_
    rw [show Spec.implemented c.options.dbName.isSome 24 = true by cases c.options.dbName.isSome <;> decide, Bool.and_true]
  · rw [hasFlag32_eq _ _ 9 rfl]
    refine (h2 9).trans ?_
    rw [show Spec.implemented c.options.dbName.isSome 9 = true by cases c.options.dbName.isSome <;> decide, Bool.and_true]

/-- So two connections made in whatever ways, as whomever, with servers of two kinds or one, do the same from then on,
if the greetings agree in two bits. -/
theorem C95_connected {R : Type} (cr₁ cr₂ : Crypto) (alnum : Char → Bool) (fp : FloatParse) (c₁ c₁' c₂ c₂' : Conn)
    (h₁ : connect cr₁ alnum fp c₁ = (.ok (), c₁')) (h₂ : connect cr₂ alnum fp c₂ = (.ok (), c₂'))
    (g₁ g₂ : Bytes) (d₁ d₂ : Conn) (hg₁ : readPacket c₁ = (.ok g₁, d₁)) (hg₂ : readPacket c₂ = (.ok g₂, d₂))
    (heof : (Spec.offered g₁).testBit 24 = (Spec.offered g₂).testBit 24)
    (hstate : (Spec.offered g₁).testBit 9 = (Spec.offered g₂).testBit 9)
    (xs : List (Step R)) (later₁ later₂ : Conn) (hl₁ : later₁.data = c₁'.data) (hl₂ : later₂.data = c₂'.data)
    (h : SameLine later₁ later₂) :
    (runSteps xs later₂).1 = (runSteps xs later₁).1 ∧ (runSteps xs later₂).2.tx = (runSteps xs later₁).2.tx := by
  obtain ⟨p₁, e₁, k1, k2, k3, k4, k5⟩ := C95_two_bits cr₁ alnum fp c₁ c₁' h₁
  obtain ⟨p₂, e₂, l1, l2, l3, l4, l5⟩ := C95_two_bits cr₂ alnum fp c₂ c₂' h₂
  rw [hg₁] at k1
  rw [hg₂] at l1
  injection k1 with k1 _
  injection k1 with k1
  injection l1 with l1 _
  injection l1 with l1
  subst k1 l1
  have := C95_session xs later₁ later₂ h (by
    rw [hl₁, hl₂]
    exact ⟨by rw [k4, l4, heof], by rw [k5, l5, hstate], by rw [k2, l2], by rw [k3, l3]⟩)
  exact ⟨this.1, this.2.1.tx⟩

namespace C95ex

/-- an end of result of 8 bytes. -/
def ending : Bytes := [8, 0, 0, 1, 0xFE, 0, 0, 2, 0, 0, 0, 0]

def c : Conn := { exConn ending with seqId := 1, pendingResult := true }

/-- somebody else, with another limit. -/
def somebody : Conn :=
  { c with
    options := { c.options with user := "eve".toList, password := "hunter2".toList }
    data := { c.data with maxAllowedPacket := 1, nonce := [1, 2, 3] } }

/-- the same with a server that does not have the new end of results. -/
def elder : Conn := { c with data := { c.data with capabilities := Cap.PROTOCOL_41 } }

/-- is the result at its end? -/
def ended (c : Conn) : Option Bool :=
  match ({ columns := [], okPacket := none } : RSet).next (binReader mkPlain) c with
  | (.ok (rs, _), _) => some rs.okPacket.isSome
  | _ => none

end C95ex

open C95ex in
/-- who one is makes no difference, the capability does. -/
theorem C95_example :
    ended c = some true ∧ ended somebody = some true ∧ ended elder = some false ∧
    Alike somebody.data.capabilities c.data.capabilities ∧ ¬ Alike elder.data.capabilities c.data.capabilities := by
  refine ⟨by decide +kernel, by decide +kernel, by decide +kernel, ⟨rfl, rfl, rfl, rfl⟩, fun h => ?_⟩
  have := h.eof
  revert this
  decide +kernel

end Verif

import Verif.Model.Async
import Verif.Model.Release

/-!
# The futures in a build without overflow checks

Connecting and starting a migrator are the only futures whose text has arithmetic that can leave its type
(Model/Release.lean); reading a result set reaches it through its reader (`textReaderRel`) only.
-/

namespace Verif

namespace Async

/-- query.rs 53-67, as `askLimit`. -/
def askLimitRel (fp : FloatParse) : Code Unit := do
  let rs ← query "select @@max_allowed_packet".toList
  let (rs', row?) ← next (textReaderRel fp mkPlain) rs
  match row? with
  | none => pure ()
  | some row => do
    let n ← Code.out (limitOf rs'.columns row)
    storeLimit n

/-- query.rs 51-70, as `readSettings`. -/
def readSettingsRel (fp : FloatParse) : Code Unit := do
  let c ← Code.get
  if c.options.maxAllowedPacket.isNone then askLimitRel fp else pure ()

/-- init.rs 36-81, as `handleHandshake`. -/
def handleHandshakeRel (alnum : Char → Bool) : Code Unit := do
  let packet ← readPacket
  match runP Handshake.deserializeRel packet with
  | .ok hs =>
    match parseServerVersion alnum hs.serverVersion with
    | .ok v => Code.modify fun c => { c with data := connDataOf c.options hs v }
    | _ => crash
  | _ => crash

/-- init.rs 18-27, as `login`. -/
def loginRel (cr : Crypto) (alnum : Char → Bool) : Code Unit := do
  handleHandshakeRel alnum
  doHandshakeResponse cr
  continueAuth cr 2

/-- init.rs 14-30, as `connect`. -/
def connectRel (cr : Crypto) (alnum : Char → Bool) (fp : FloatParse) : Code Unit := do
  loginRel cr alnum
  readSettingsRel fp

/-- migrator_inner.rs 45-62, as `loadTurn`. -/
def loadTurnRel (fp : FloatParse) (ms : List MigList) (x : RSet × (Version → List Str)) :
    Code ((RSet × (Version → List Str)) ⊕ (Version → List Str)) := do
  let (rs', k?) ← next (textReaderRel fp migrationOf) x.1
  match k? with
  | none => pure (.inr x.2)
  | some k => if isKnown ms k then pure (.inl (rs', insertApplied x.2 k)) else crash

/-- migrator_inner.rs 39-62, as `loadTable`. -/
def loadTableRel (fp : FloatParse) (ms : List MigList) : Code (Version → List Str) := do
  let rs ← query selectSql
  Code.loop (loadTurnRel fp ms) (rs, fun _ => [])

/-- migrator_inner.rs 24-37, as `ensureTable`. -/
def ensureTableRel (fp : FloatParse) : Code Unit := do
  let rs ← query existsSql
  let (_, rows) ← collect (textReaderRel fp mkPlain) rs
  if rows.isEmpty then do
    let _ ← executeQuery createSql
    pure ()
  else pure ()

/-- migrator_inner.rs 17-68, as `migratorOpen`: the `debug_assert!` of line 21 is not there. -/
def migratorOpenRel (fp : FloatParse) (ms : List MigList) : Code (Version → List Str) := do
  ensureTableRel fp
  loadTableRel fp ms

end Async

end Verif

import Verif.Model.Query
import Verif.Spec.Response
import Verif.Proofs.Io
import Verif.Proofs.Text

/-! Helper lemmas: decoding the packets a server sends. -/

namespace Verif

theorem P.checkedEatLenencStr_spec {s : Str} (r : Bytes) (h : (utf8 s).length < 2 ^ 64) :
    P.checkedEatLenencStr (Spec.lenencStr (utf8 s) ++ r) = (.ok s, r) := by
  unfold P.checkedEatLenencStr
  rw [SM.bind_of_ok (P.checkedEatLenencSlice_spec r h), fromUtf8_utf8]
  rfl

theorem P.checkedEatU8Slice_spec {s : Bytes} (r : Bytes) (h : s.length < 251) :
    P.checkedEatU8Slice (Spec.lenencStr s ++ r) = (.ok s, r) := by
  have e : Spec.lenencStr s = UInt8.ofNat s.length :: s := by
    unfold Spec.lenencStr Spec.lenenc; rw [if_pos (by omega)]; rfl
  unfold P.checkedEatU8Slice
  rw [e, List.cons_append, SM.bind_of_ok (P.checkedEatU8_cons _ _)]
  have h1 : (UInt8.ofNat s.length).toNat = s.length := uint8_toNat_ofNat_of_lt (by omega)
  exact P.checkedEat_append s r h1.symm

theorem P.checkedEatU8Str_spec {s : Str} (r : Bytes) (h : (utf8 s).length < 251) :
    P.checkedEatU8Str (Spec.lenencStr (utf8 s) ++ r) = (.ok s, r) := by
  unfold P.checkedEatU8Str
  rw [SM.bind_of_ok (P.checkedEatU8Slice_spec r h), fromUtf8_utf8]
  rfl

theorem spec_readInt_le {k n : Nat} (r : Bytes) (h : n < 256 ^ k) :
    Spec.readInt k (Spec.le k n ++ r) = some (n, r) := by
  rw [spec_le_eq]; exact spec_readInt_leBytes r h

theorem attempt_ok {α : Type} {p : P α} {bs r : Bytes} {a : α} (h : p bs = (.ok a, r)) :
    SM.attempt p bs = (.ok (.ok a), r) := by
  unfold SM.attempt; rw [h]

theorem attempt_err {α : Type} {p : P α} {bs r : Bytes} {e : ProtocolError} (h : p bs = (.err e, r)) :
    SM.attempt p bs = (.ok (.error e), r) := by
  unfold SM.attempt; rw [h]

/-- nothing left: no string. -/
theorem optStr_nil : optStr [] = (.ok none, []) := by
  have h : P.checkedEatLenencStr [] = (.err .eof, []) := rfl
  unfold optStr
  rw [SM.bind_of_ok (attempt_err h)]
  rfl

theorem optStr_spec {s : Str} (r : Bytes) (h : (utf8 s).length < 2 ^ 64) :
    optStr (Spec.lenencStr (utf8 s) ++ r) = (.ok (if s = [] then none else some s), r) := by
  unfold optStr
  rw [SM.bind_of_ok (attempt_ok (P.checkedEatLenencStr_spec r h))]
  rfl

/-! ### OK packets -/

theorem readTail_spec (caps : UInt32) (a l : UInt64) (status warnings : UInt16) (rest : Bytes) :
    OkPacket.readTail caps a l (Spec.le 2 status.toNat ++ (Spec.le 2 warnings.toNat ++ rest)) =
      (do
        let message ← optStr
        let info ←
          if hasFlag32 caps Cap.SESSION_TRACK &&
              hasFlag16 (statusTruncate status) Status.SESSION_STATE_CHANGED then optStr
          else pure none
        pure { affectedRows := a, lastInsertId := l, status := statusTruncate status,
               warnings := warnings, message := message, sessionStateInfo := info } : P OkPacket)
        rest := by
  unfold OkPacket.readTail
  rw [SM.bind_of_ok (P.checkedEatU16_of (spec_readInt_le _ (by have := status.toNat_lt; omega)))]
  dsimp only
  rw [SM.bind_of_ok (P.checkedEatU16_of (spec_readInt_le _ (by have := warnings.toNat_lt; omega)))]
  simp only [UInt16.ofNat_toNat]

theorem readOk_head (caps : UInt32) (a l : UInt64) (rest : Bytes) :
    OkPacket.readOk caps ([0x00] ++ Spec.lenenc a.toNat ++ Spec.lenenc l.toNat ++ rest)
      = OkPacket.readTail caps a l rest := by
  unfold OkPacket.readOk
  rw [List.append_assoc, List.append_assoc, List.singleton_append,
    SM.bind_of_ok (P.checkedEatU8_of (spec_readInt_cons _ _))]
  rw [if_neg (by decide)]
  rw [SM.bind_of_ok (P.checkedEatLenencInt_spec _ a.toNat_lt),
    SM.bind_of_ok (P.checkedEatLenencInt_spec _ l.toNat_lt)]
  simp only [UInt64.ofNat_toNat]

/-- the summary of a command with exactly these fields (unknown status bits are not
representable; an empty message is no message). -/
def okOf (a l : UInt64) (status warnings : UInt16) (msg : Str) : OkPacket :=
  { affectedRows := a, lastInsertId := l, status := statusTruncate status, warnings := warnings,
    message := if msg = [] then none else some msg, sessionStateInfo := none }

/-- the packet without session tracking information. -/
theorem readOk_spec (caps : UInt32) (a l : UInt64) (status warnings : UInt16) (msg : Str)
    (hm : (utf8 msg).length < 2 ^ 64)
    (hs : hasFlag32 caps Cap.SESSION_TRACK = false ∨
      hasFlag16 (statusTruncate status) Status.SESSION_STATE_CHANGED = false) :
    runP (OkPacket.readOk caps)
        (Spec.okPacket a.toNat l.toNat status.toNat warnings.toNat msg)
      = .ok (okOf a l status warnings msg) := by
  have hc : (hasFlag32 caps Cap.SESSION_TRACK &&
              hasFlag16 (statusTruncate status) Status.SESSION_STATE_CHANGED) = false := by
    rcases hs with h | h <;> simp [h]
  unfold runP Spec.okPacket
  rw [List.append_assoc, List.append_assoc, readOk_head, readTail_spec, hc]
  simp only [Bool.false_eq_true, if_false]
  by_cases h : msg = []
  · subst h
    rw [if_pos rfl, SM.bind_of_ok optStr_nil]
    rfl
  · rw [if_neg h, ← List.append_nil (Spec.lenencStr _), SM.bind_of_ok (optStr_spec [] hm)]
    rfl

theorem readOk_tracked (caps : UInt32) (a l : UInt64) (status warnings : UInt16) (msg info : Str)
    (hm : (utf8 msg).length < 2 ^ 64) (hi : (utf8 info).length < 2 ^ 64)
    (hs : hasFlag32 caps Cap.SESSION_TRACK = true)
    (hs2 : hasFlag16 (statusTruncate status) Status.SESSION_STATE_CHANGED = true) :
    runP (OkPacket.readOk caps)
        (Spec.okPacketTracked a.toNat l.toNat status.toNat warnings.toNat msg info)
      = .ok { affectedRows := a, lastInsertId := l, status := statusTruncate status,
              warnings := warnings, message := if msg = [] then none else some msg,
              sessionStateInfo := if info = [] then none else some info } := by
  unfold runP Spec.okPacketTracked
  rw [List.append_assoc, List.append_assoc, List.append_assoc, readOk_head, readTail_spec, hs, hs2]
  simp only [Bool.and_true, if_true]
  rw [SM.bind_of_ok (optStr_spec _ hm), ← List.append_nil (Spec.lenencStr (utf8 info)),
    SM.bind_of_ok (optStr_spec [] hi)]
  rfl

/-! ### ERR packets -/

/-- no SQL state in the packet unless protocol 4.1 is in use. -/
def stateOf (p41 : Bool) (state : Bytes) : Option Bytes := if p41 then some state else none

theorem errPacket_spec (caps : UInt32) (code : UInt16) (state : Str) (msg : Str)
    (hs : (utf8 state).length = 5)
    (hc : code ≠ 0xFFFF ∨ hasFlag32 caps Cap.PROGRESS_OBSOLETE = false) :
    runP (ErrPacket.deserialize caps)
        (Spec.errPacket code.toNat (stateOf (hasFlag32 caps Cap.PROTOCOL_41) (utf8 state)) msg)
      = .ok (.error code (stateOf (hasFlag32 caps Cap.PROTOCOL_41) (utf8 state)) msg) := by
  unfold runP Spec.errPacket ErrPacket.deserialize
  have hl : P.checkLen 3 ([0xFF] ++ Spec.le 2 code.toNat ++
      Spec.errState (stateOf (hasFlag32 caps Cap.PROTOCOL_41) (utf8 state)) ++ utf8 msg) = (.ok (), _) :=
    P.checkLen_ok (by simp [spec_le_eq])
  rw [SM.bind_of_ok hl, List.append_assoc, List.append_assoc, List.singleton_append,
    SM.bind_of_ok (P.eatU8_cons _ _), if_neg (by decide),
    SM.bind_of_ok (P.eatU16_of (spec_readInt_le _ (by have := code.toNat_lt; omega)))]
  have hcode : UInt16.ofNat code.toNat = code := UInt16.ofNat_toNat
  rw [hcode, if_neg (by rcases hc with h | h <;> simp [h])]
  unfold ErrPacket.deserializeError
  cases h41 : hasFlag32 caps Cap.PROTOCOL_41 with
  | false =>
    simp only [stateOf, Spec.errState, Bool.false_eq_true, if_false, List.nil_append]
    rw [SM.pure_bind_apply]
    have : P.eatAll (utf8 msg) = (.ok (utf8 msg), []) := rfl
    rw [SM.bind_of_ok this, fromUtf8_utf8]
    rfl
  | true =>
    simp only [stateOf, Spec.errState, if_true, List.cons_append]
    rw [SM.bind_of_ok (P.checkedEatU8_cons _ _), if_neg (by decide),
      SM.bind_of_ok (P.checkedEat_append _ _ hs), fromUtf8_utf8]
    dsimp only
    rw [SM.pure_bind_apply]
    have : P.eatAll (utf8 msg) = (.ok (utf8 msg), []) := rfl
    rw [SM.bind_of_ok this, fromUtf8_utf8]
    rfl

/-! ### Statement answers and column definitions -/

theorem stmt_spec (id : UInt32) (columns params warnings : UInt16) (rest : Bytes) :
    runP Stmt.deserialize (Spec.stmtOk id.toNat columns.toNat params.toNat warnings.toNat ++ rest)
      = .ok { id := id, columnsLen := columns, paramsLen := params, warningCount := warnings } := by
  unfold runP Spec.stmtOk Stmt.deserialize
  have hl : P.checkLen 12 ([0x00] ++ Spec.le 4 id.toNat ++ Spec.le 2 columns.toNat ++
      Spec.le 2 params.toNat ++ [0] ++ Spec.le 2 warnings.toNat ++ rest) = (.ok (), _) :=
    P.checkLen_ok (by simp [spec_le_eq]; omega)
  rw [SM.bind_of_ok hl]
  simp only [List.append_assoc, List.cons_append, List.nil_append]
  have hsk : ∀ (b : UInt8) (r : Bytes), P.skip 1 (b :: r) = (.ok (), r) := fun b r => by
    simp [P.skip]
  rw [SM.bind_of_ok (hsk _ _),
    SM.bind_of_ok (P.eatU32_of (spec_readInt_le _ (by have := id.toNat_lt; omega))),
    SM.bind_of_ok (P.eatU16_of (spec_readInt_le _ (by have := columns.toNat_lt; omega))),
    SM.bind_of_ok (P.eatU16_of (spec_readInt_le _ (by have := params.toNat_lt; omega))),
    SM.bind_of_ok (hsk _ _),
    SM.bind_of_ok (P.eatU16_of (spec_readInt_le _ (by have := warnings.toNat_lt; omega)))]
  simp

theorem ofByte_toByte (t : ColumnType) : ColumnType.ofByte t.toByte = .ok t := by
  cases t <;> decide

theorem colFlag_all (f : UInt16) : colFlagTryFrom f = .ok f := by
  unfold colFlagTryFrom
  rw [if_pos]
  have : ~~~ColFlag.ALL = 0 := by decide
  rw [this]; simp

theorem spec_le_one {n : Nat} : Spec.le 1 n = [UInt8.ofNat n] := by
  rw [spec_le_eq]
  simp only [leBytes]
  congr 1
  apply UInt8.toNat_inj.mp
  simp

/-- the five names are below 251 bytes. -/
def shortNames (d : Spec.ColDesc) : Prop :=
  (utf8 d.db).length < 251 ∧ (utf8 d.table).length < 251 ∧ (utf8 d.orgTable).length < 251 ∧
    (utf8 d.name).length < 251 ∧ (utf8 d.orgName).length < 251

theorem colDef_spec (d : Spec.ColDesc) (t : ColumnType) (rest : Bytes) (hn : shortNames d)
    (ht : d.code = t.toByte.toNat) (hf : d.flags < 2 ^ 16) (hc : d.charset < 2 ^ 16)
    (hl : d.length < 2 ^ 32) :
    runP ColumnDef.deserialize (Spec.colDef d ++ rest)
      = .ok { db := d.db, table := d.table, orgTable := d.orgTable, name := d.name,
              orgName := d.orgName, charset := UInt16.ofNat d.charset,
              length := UInt32.ofNat d.length, type := t, flags := UInt16.ofNat d.flags,
              decimals := UInt8.ofNat d.decimals } := by
  obtain ⟨h1, h2, h3, h4, h5⟩ := hn
  have hdef : utf8 "def".toList = [0x64, 0x65, 0x66] := by decide
  unfold runP Spec.colDef ColumnDef.deserialize
  simp only [List.append_assoc]
  rw [hdef, SM.bind_of_ok (P.checkedEatU8Slice_spec _ (by decide)), if_neg (by simp),
    SM.bind_of_ok (P.checkedEatU8Str_spec _ h1), SM.bind_of_ok (P.checkedEatU8Str_spec _ h2),
    SM.bind_of_ok (P.checkedEatU8Str_spec _ h3), SM.bind_of_ok (P.checkedEatU8Str_spec _ h4),
    SM.bind_of_ok (P.checkedEatU8Str_spec _ h5)]
  have hlen : ∀ r : Bytes, P.checkLen 13 ([0x0C] ++ (Spec.le 2 d.charset ++ (Spec.le 4 d.length ++
      (Spec.le 1 d.code ++ (Spec.le 2 d.flags ++ (Spec.le 1 d.decimals ++ r)))))) =
      if r.length < 2 then (.err .eof, [0x0C] ++ (Spec.le 2 d.charset ++ (Spec.le 4 d.length ++
      (Spec.le 1 d.code ++ (Spec.le 2 d.flags ++ (Spec.le 1 d.decimals ++ r)))))) else (.ok (), [0x0C] ++ (Spec.le 2 d.charset ++ (Spec.le 4 d.length ++
      (Spec.le 1 d.code ++ (Spec.le 2 d.flags ++ (Spec.le 1 d.decimals ++ r)))))) := by
    intro r
    unfold P.checkLen
    have : ([0x0C] ++ (Spec.le 2 d.charset ++ (Spec.le 4 d.length ++
      (Spec.le 1 d.code ++ (Spec.le 2 d.flags ++ (Spec.le 1 d.decimals ++ r)))))).length
        = 11 + r.length := by simp [spec_le_eq]; omega
    rw [this]
    by_cases h : r.length < 2
    · rw [if_pos (by omega), if_pos h]
    · rw [if_neg (by omega), if_neg h]
  rw [SM.bind_of_ok ((hlen ([0, 0] ++ rest)).trans (if_neg (by simp)))]
  rw [List.singleton_append, SM.bind_of_ok (P.eatU8_cons _ _), if_neg (by simp),
    SM.bind_of_ok (P.eatU16_of (spec_readInt_le _ (by omega))),
    SM.bind_of_ok (P.eatU32_of (spec_readInt_le _ (by omega))), spec_le_one,
    List.singleton_append, SM.bind_of_ok (P.eatU8_cons _ _), ht, UInt8.ofNat_toNat, ofByte_toByte]
  simp only [Out.mapErr_ok]
  rw [SM.ofOut_ok_bind_apply, SM.bind_of_ok (P.eatU16_of (spec_readInt_le _ (by omega))),
    colFlag_all]
  simp only [Out.mapErr_ok]
  rw [SM.ofOut_ok_bind_apply, spec_le_one, List.singleton_append, SM.bind_of_ok (P.eatU8_cons _ _)]
  rfl

end Verif

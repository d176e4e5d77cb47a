import Verif.Props.C12_Iteration

/-!
# C16 — the end-of-result packet reports the server's status and warnings

False for the code: `read_eof` takes the marker byte 0xFE for the length prefix of a
length-encoded integer, so every later field is shifted by one byte.  What it does report is
stated exactly.
-/

namespace Verif

/-- What `finish` returns after any rows, for every terminator: no affected rows and no insert id,
as the protocol says; but the low byte of the reported status is 0 and its high byte is the low
byte of the server's status, and the reported warnings are the high byte of the status and the low
byte of the warnings.  So the report is right if both words are 0.
Missing: the server's own status and warnings (`C16_violated`). -/
theorem C16_summary_partial {R : Type} (rd : RowReader R) (rs : RSet) (c : Conn) (ps : List Bytes)
    (xs : List R) (status warnings : UInt16) (r : List Rx) (hrs : rs.okPacket = none)
    (h : RowsAs rd rs.columns ps xs)
    (hc : c.rx = rxOf (Spec.framesAll c.seqId
      (ps ++ [Spec.terminator status.toNat warnings.toNat])) ++ r) :
    ∃ ok c', rs.finish rd c = (.ok ok, c') ∧ c'.rx = r ∧ c'.pendingResult = false ∧
      ok.affectedRows = 0 ∧ ok.lastInsertId = 0 ∧ ok.message = none ∧
      ok.status = statusTruncate (UInt16.ofNat (256 * (status.toNat % 256))) ∧
      ok.warnings = UInt16.ofNat (status.toNat / 256 + 256 * (warnings.toNat % 256)) ∧
      (status = 0 → warnings = 0 → ok.status = 0 ∧ ok.warnings = 0) := by
  have hc' := Conn.feed_of rfl hc
  have k := collect_rows rd rs c c.seqId ps [] xs status.toNat warnings.toNat r hrs h
  rw [← hc'] at k
  unfold RSet.finish RSet.drain
  rw [hrs]
  dsimp only
  rw [SM.bind_apply, SM.bind_of_ok k]
  refine ⟨_, _, rfl, rfl, rfl, rfl, rfl, rfl, rfl, ?_, ?_⟩
  · simp only [eofSeen]
    have := status.toNat_lt
    rw [Nat.mod_eq_of_lt (show status.toNat / 256 < 256 by omega)]
  · rintro rfl rfl
    exact ⟨by decide, by decide⟩

/-- **C16**, exactly: of the terminators whose status has declared bits only, the one that is reported right is the one with status
0 and no warnings; so nothing is ever right of a server that is in autocommit mode or in a transaction. -/
theorem C16_exact_partial {R : Type} (rd : RowReader R) (rs : RSet) (c : Conn) (ps : List Bytes)
    (xs : List R) (status warnings : UInt16) (r : List Rx) (hrs : rs.okPacket = none)
    (h : RowsAs rd rs.columns ps xs)
    (hc : c.rx = rxOf (Spec.framesAll c.seqId
      (ps ++ [Spec.terminator status.toNat warnings.toNat])) ++ r)
    (hd : statusTruncate status = status) :
    ∃ ok c', rs.finish rd c = (.ok ok, c') ∧
      (ok.status = status ∧ ok.warnings = warnings ↔ status = 0 ∧ warnings = 0) ∧
      (ok.status = status ↔ status = 0) := by
  obtain ⟨ok, c', h1, -, -, -, -, -, h2, h3, -⟩ := C16_summary_partial rd rs c ps xs status warnings r hrs h hc
  have hs : ok.status = status ↔ status = 0 := by
    rw [h2]
    constructor
    · intro e
      have e' := congrArg UInt16.toNat e
      unfold statusTruncate at e'
      have hlt := Nat.mod_lt status.toNat (show 256 > 0 by decide)
      rw [UInt16.toNat_and, UInt16.toNat_ofNat', Nat.mod_eq_of_lt (by omega)] at e'
      have e2 := congrArg (· % 2 ^ 8) e'
      simp only [Nat.and_mod_two_pow] at e2
      rw [show 256 * (status.toNat % 256) % 2 ^ 8 = 0 by omega, Nat.zero_and] at e2
      rw [show status.toNat % 256 = 0 by omega] at e'
      simp only [Nat.mul_zero, Nat.zero_and] at e'
      exact UInt16.toNat_inj.1 (by rw [← e']; rfl)
    · rintro rfl
      decide
  refine ⟨ok, c', h1, ?_, hs⟩
  constructor
  · rintro ⟨e1, e2⟩
    have h0 := hs.1 e1
    refine ⟨h0, ?_⟩
    subst h0
    rw [h3] at e2
    have e3 := congrArg UInt16.toNat e2
    have hlt := Nat.mod_lt warnings.toNat (show 256 > 0 by decide)
    have h00 : (0 : UInt16).toNat = 0 := rfl
    rw [UInt16.toNat_ofNat', h00, Nat.mod_eq_of_lt (by omega)] at e3
    exact UInt16.toNat_inj.1 (by omega)
  · rintro ⟨rfl, rfl⟩
    refine ⟨hs.2 rfl, ?_⟩
    rw [h3]
    decide

/-- A terminator with status 2 (autocommit) and one warning is reported as status 512 and 256
warnings. -/
theorem C16_violated :
    (RSet.finish (binReader mkPlain) { columns := [], okPacket := none }
      (exConn ([7, 0, 0, 1] ++ [0xFE, 0, 0, 2, 0, 1, 0]))).1
      = .ok { affectedRows := 0, lastInsertId := 0, status := 512, warnings := 256,
              message := none, sessionStateInfo := none } ∧
    Spec.terminator 2 1 = [0xFE, 0, 0, 2, 0, 1, 0] := by decide +kernel

end Verif

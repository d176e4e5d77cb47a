import Verif.Proofs.ResultSet
import Verif.Proofs.Example
import Verif.Props.C09_BinRows
import Verif.Props.C10_TextRows

/-!
# C11 — a data row is never mistaken for the end of the result

`Spec.IsRow` are the packets a server sends as rows of a result set with at least one column.
-/

namespace Verif

/-- rows in the text protocol are such packets, -/
theorem isRow_text {fp : FloatParse} {types : List (Nat × Bool)} {ds : List Spec.Datum} {p : Bytes}
    (h : Spec.TextRow fp types ds p) (hne : types ≠ []) : Spec.IsRow p := by
  have key : ∃ cells : List (Option Bytes), cells.length = types.length ∧
      (∀ t, some t ∈ cells → t.length < 2 ^ 64) ∧ p = Spec.textCells cells := by
    clear hne
    induction h with
    | nil => exact ⟨[], rfl, by simp, rfl⟩
    | null _ ih =>
      obtain ⟨cells, h1, h2, h3⟩ := ih
      exact ⟨none :: cells, by simp [h1], by simpa using h2, by simp [Spec.textCells, h3]⟩
    | @cell c u ts d ds txt bs hf hl _ ih =>
      obtain ⟨cells, h1, h2, h3⟩ := ih
      refine ⟨some txt :: cells, by simp [h1], ?_, by simp [Spec.textCells, h3]⟩
      intro t ht
      rcases List.mem_cons.mp ht with h | h
      · injection h with h; rw [h]; exact hl
      · exact h2 t h
  obtain ⟨cells, h1, h2, h3⟩ := key
  refine Or.inl ⟨cells, ?_, h2, h3⟩
  rintro rfl
  exact hne (List.length_eq_zero_iff.mp h1.symm)

/-- and so are rows in the binary protocol. -/
theorem isRow_bin {types : List (Nat × Bool)} {ds : List Spec.Datum} {p rest : Bytes}
    (h : Spec.readRow types p = some (ds, rest)) : Spec.IsRow p := by
  unfold Spec.readRow at h
  obtain ⟨⟨hd, bs⟩, h1, h2⟩ := option_bind_some h
  dsimp only at h2
  cases p with
  | nil => simp [Spec.readInt, Spec.readN] at h1
  | cons b p =>
    rw [spec_readInt_cons] at h1
    simp only [Option.some.injEq, Prod.mk.injEq] at h1
    split at h2
    · cases h2
    · rename_i hb
      refine Or.inr ⟨p, ?_⟩
      have : b.toNat = 0 := by rw [h1.1]; simpa using hb
      have : b = 0 := UInt8.toNat_inj.mp (by simpa using this)
      rw [this]

/-- Asking for the next row when the next packet is a row: the end of the result set is not
reported and the result is still pending, whatever the row contains, how large it is, however it
is decoded, and whatever capabilities were negotiated. -/
theorem C11_row_is_not_the_end {R : Type} (rd : RowReader R) (rs : RSet) (c : Conn) (p : Bytes)
    (r : List Rx) (hrs : rs.okPacket = none) (hp : Spec.IsRow p)
    (h : c.rx = rxOf (Spec.frames c.seqId p) ++ r) :
    (∀ rs', (rs.next rd c).1 ≠ .ok (rs', none)) ∧
    (rs.next rd c).2 = { c with rx := r, seqId := c.seqId + UInt8.ofNat (Spec.frameCount p) } := by
  unfold RSet.next
  rw [hrs, if_neg (by simp), SM.bind_of_ok (readPacket_frames p r c h), SM.get_bind_apply,
    isLast_row _ hp, SM.ofOut_ok_bind_apply, if_neg (by simp)]
  cases h1 : rd.row p rs.columns with
  | ok vs =>
    unfold liftP
    rw [Out.mapErr_ok, SM.ofOut_ok_bind_apply]
    unfold liftParse
    cases h2 : rd.build rs.columns vs with
    | ok x => rw [Out.mapErr_ok, SM.ofOut_ok_bind_apply]; exact ⟨by simp, rfl⟩
    | err e => exact ⟨fun _ h => (by cases h), rfl⟩
    | panic => exact ⟨fun _ h => (by cases h), rfl⟩
  | err e => exact ⟨fun _ h => (by cases h), rfl⟩
  | panic => exact ⟨fun _ h => (by cases h), rfl⟩

/-- The terminator is always recognised: no row is produced, the end is reported, nothing more is
consumed. -/
theorem C11_terminator_is_the_end {R : Type} (rd : RowReader R) (rs : RSet) (c : Conn)
    (status warnings : Nat) (r : List Rx) (hrs : rs.okPacket = none)
    (h : c.rx = rxOf (Spec.frames c.seqId (Spec.terminator status warnings)) ++ r) :
    ∃ ok, rs.next rd c = (.ok ({ rs with okPacket := some ok }, none),
      { c with rx := r, seqId := c.seqId + 1, pendingResult := false }) := by
  have hc : c = c.feed c.seqId [Spec.terminator status warnings] r :=
    Conn.feed_of rfl (by rw [h]; simp [Spec.framesAll])
  have := next_term rd rs c c.seqId status warnings [] r hrs
  rw [← hc] at this
  exact ⟨_, by rw [this]; rfl⟩

/-- The same when rows are skipped before the next command: exactly the rows and the terminator are
consumed. -/
theorem C11_skipping_stops_at_the_terminator (c : Conn) (rows : List Bytes) (status warnings : Nat)
    (r : List Rx) (hrows : ∀ p ∈ rows, Spec.IsRow p) (hp : c.pendingResult = true)
    (h : c.rx = rxOf (Spec.framesAll c.seqId (rows ++ [Spec.terminator status warnings])) ++ r) :
    ∃ ok q, cleanup c = (.ok (some ok), { c with rx := r, seqId := q, pendingResult := false }) := by
  have hc : c = c.feed c.seqId (rows ++ [Spec.terminator status warnings]) r := Conn.feed_of rfl h
  have := cleanup_rows c c.seqId rows [] status warnings r hrows hp
  rw [← hc] at this
  exact ⟨_, _, this⟩

/-- A first field of 16 MiB starts with the terminator's marker byte 0xFE. -/
theorem C11_ambiguous_marker (t : Bytes) (h1 : 2 ^ 24 ≤ t.length) (h2 : t.length < 2 ^ 64) :
    Spec.IsRow (Spec.textCells [some t]) ∧ ∃ r, Spec.textCells [some t] = 0xFE :: r := by
  refine ⟨Or.inl ⟨[some t], by simp, by simpa using h2, rfl⟩, ?_⟩
  refine ⟨Spec.le 8 t.length ++ t, ?_⟩
  simp only [Spec.textCells, Spec.lenencStr, Spec.lenenc]
  rw [if_neg (by omega), if_neg (by omega), if_neg (by omega)]
  simp

-- rows, the terminator, and a row that cannot be decoded
example : Spec.IsRow [1, 55] ∧ Spec.IsRow [251] ∧ Spec.IsRow [0, 0, 7, 0, 0, 0] :=
  ⟨Or.inl ⟨[some [55]], by simp, by simp, rfl⟩, Or.inl ⟨[none], by simp, by simp, rfl⟩,
    Or.inr ⟨_, rfl⟩⟩

example :
    let rs : RSet := { columns := [⟨['n'], ['n'], ['t'], ['t'], .long, 0⟩], okPacket := none }
    let rd := textReader { f32 := fun _ => none, f64 := fun _ => none } mkPlain
    let show' (x : Out Error (RSet × Option (List Value)) × Conn) :=
      (x.1.map' Prod.snd, x.2.rx, x.2.pendingResult)
    let c (rx : Bytes) := { exConn rx with pendingResult := true }
    show' (rs.next rd (c [2, 0, 0, 1, 1, 55, 9])) = (.ok (some [.int 7]), [.byte 9], true) ∧
    show' (rs.next rd (c [7, 0, 0, 1, 254, 0, 0, 2, 0, 0, 0, 9])) = (.ok none, [.byte 9], false) ∧
    -- a row that cannot be decoded is an error, not the end
    show' (rs.next rd (c [2, 0, 0, 1, 1, 120, 9])) = (.err (.protocol (.io .invalidData)), [.byte 9], true)
    := by decide +kernel
-- skipping

example :
    let c := { exConn ([2, 0, 0, 1, 1, 55] ++ [1, 0, 0, 2, 251] ++ [7, 0, 0, 3, 254, 0, 0, 2, 0, 0, 0] ++ [9])
      with pendingResult := true }
    (cleanup c).1.map' Option.isSome = .ok true ∧ (cleanup c).2.rx = [.byte 9] ∧
      (cleanup c).2.pendingResult = false := by decide +kernel

end Verif

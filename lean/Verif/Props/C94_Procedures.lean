import Verif.Spec.Procedure
import Verif.Props.C61_AfterFailure
import Verif.Props.C15_OkPackets

/-!
# C94: calls of stored procedures

The client announces `CLIENT_PS_MULTI_RESULTS` (options.rs 85), so that a server answers a prepared `CALL` with all the
result sets of the procedure and an OK packet. A call returns the rows of the first one; the rest is not read.
-/

namespace Verif

/-- What holds: a procedure that produces result sets is answered with the rows of the first one, as after any other
statement; the rest of the answer is left on the stream, and nothing marks the connection.

Missing: the rest is not read (`C94_shifted_violated`, `C94_told_violated`). -/
theorem C94_first_partial (p : Prepared) (values : List Value) (c : Conn) (t : Spec.Table) (ts : List Spec.Table)
    (cols : List Column) (rows : List (List Spec.Datum)) (status warnings : Nat) (done : Bytes) (r : List Rx)
    (req : ExecRequest) (hp : c.pendingResult = false) (hw : c.wfaults = []) (hn : values.length = p.params)
    (hd : DescsAs t.columns cols) (h0 : t.columns ≠ []) (hl : t.columns.length < 2 ^ 56)
    (hrows : BinRows cols rows t.rows) (hreq : ExecRequest.new (ε := Error) p.id values = .ok req) (s : UInt8)
    (hs : s = UInt8.ofNat (Spec.frameCount req.serialize))
    (hrx : c.rx = rxOf (Spec.framesAll s (Spec.callAnswer status warnings done (t :: ts))) ++ r) :
    ∃ c1 xs c2 ok,
      p.query values c = (.ok { columns := cols, okPacket := none }, c1) ∧
      RSet.collect (binReader mkPlain) { columns := cols, okPacket := none } c1
        = (.ok ({ columns := cols, okPacket := some ok }, xs), c2) ∧
      xs.map (List.map Spec.meaning) = rows ∧
      c2.rx = rxOf (Spec.framesAll
        (Spec.seqAfter s (Spec.resultSet t.columns t.rows (status + Spec.moreResults) warnings))
        (Spec.callAnswer status warnings done ts)) ++ r ∧
      c2 = { c with rx := c2.rx, tx := c2.tx, seqId := c2.seqId, pendingResult := false } := by
  unfold Spec.callAnswer at hrx
  rw [framesAll_append, rxOf_append, List.append_assoc, hs] at hrx
  obtain ⟨c1, xs, c2, ok, h1, h2, h3, h4⟩ := C12_statement_collect p values c t.columns cols rows t.rows
    (status + Spec.moreResults) warnings _ req hp hw hn hd h0 hl hrows hreq hrx
  refine ⟨c1, xs, c2, ok, h1, h2, h3, ?_, ?_⟩
  · rw [h4, hs]
  · rw [h4]

/-- statements one after the other, going on after errors. -/
def statements : List Str → Conn → List (Out Error OkPacket) × Conn
  | [], c => ([], c)
  | sql :: sqls, c =>
    let r := executeQuery sql c
    let rest := statements sqls r.2
    (r.1 :: rest.1, rest.2)

/-- what a statement changed, as in an OK packet. -/
structure Told where
  rows : UInt64
  lastId : UInt64
  status : UInt16
  warnings : UInt16
  message : Str

def Told.packet (t : Told) : Bytes :=
  Spec.okPacket t.rows.toNat t.lastId.toNat t.status.toNat t.warnings.toNat t.message

/-- what a caller is told by that. -/
def Told.ok (t : Told) : OkPacket := okOf t.rows t.lastId t.status t.warnings t.message

/-- answers to statements, each numbered from 1. -/
def toldAnswers (ts : List Told) : Bytes := ts.flatMap fun t => Spec.frames 1 t.packet

theorem statements_answered (sqls : List Str) (hsql : ∀ q ∈ sqls, (utf8 q).length + 1 < Spec.maxFrame) (ts : List Told)
    (hts : ∀ t ∈ ts, (utf8 t.message).length < 2 ^ 64) (hlen : sqls.length = ts.length) (c : Conn)
    (hp : c.pendingResult = false) (hw : c.wfaults = [])
    (hst : hasFlag32 c.data.capabilities Cap.SESSION_TRACK = false) (r : List Rx)
    (hrx : c.rx = rxOf (toldAnswers ts) ++ r) :
    (statements sqls c).1 = ts.map fun t => .ok t.ok := by
  induction sqls generalizing ts c with
  | nil =>
    cases ts with
    | nil => rfl
    | cons t ts => cases hlen
  | cons q sqls ih =>
    cases ts with
    | nil => cases hlen
    | cons t ts =>
      have f : Spec.frameCount (0x03 :: utf8 q) = 1 :=
        frameCount_short _ (by rw [List.length_cons]; exact hsql q (List.mem_cons_self ..))
      unfold toldAnswers at hrx
      rw [List.flatMap_cons, rxOf_append, List.append_assoc] at hrx
      obtain ⟨s, hq⟩ := C15_execute_query (c := c) (a := t.rows) (l := t.lastId) (status := t.status)
        (warnings := t.warnings) (msg := t.message) (r := rxOf (toldAnswers ts) ++ r) q hp hw (hts t (List.mem_cons_self ..)) hst
        (by rw [hrx, f]; rfl)
      unfold statements
      rw [hq]
      dsimp only
      rw [List.map_cons, ih (fun q hq => hsql q (List.mem_cons_of_mem _ hq)) ts
        (fun t ht => hts t (List.mem_cons_of_mem _ ht)) (by simpa using hlen) _ ?_ ?_ ?_ rfl]
      · rfl
      · exact hp
      · exact hw
      · exact hst

/-- **C94 is false**: packets that were left on the stream, numbered from `s`, none of them with the number 1, make as many
of the following statements fail, although the server executes them; every statement after these is told the answer of a
statement before it. -/
theorem C94_shifted_violated (left : List Bytes) (hleft : ∀ p ∈ left, p.length < Spec.maxFrame) (s : UInt8)
    (hs : ∀ i < left.length, s + UInt8.ofNat i ≠ 1) (sqls : List Str)
    (hsql : ∀ q ∈ sqls, (utf8 q).length + 1 < Spec.maxFrame) (ts : List Told)
    (hts : ∀ t ∈ ts, (utf8 t.message).length < 2 ^ 64) (hlen : sqls.length = left.length + ts.length) (c : Conn)
    (hp : c.pendingResult = false) (hw : c.wfaults = [])
    (hst : hasFlag32 c.data.capabilities Cap.SESSION_TRACK = false) (r : List Rx)
    (hrx : c.rx = rxOf (Spec.framesAll s left) ++ (rxOf (toldAnswers ts) ++ r)) :
    (statements sqls c).1 = List.replicate left.length (.err (.protocol .outOfSync)) ++ ts.map fun t => .ok t.ok := by
  induction left generalizing s sqls c with
  | nil =>
    rw [List.length_nil, List.replicate_zero, List.nil_append]
    exact statements_answered sqls hsql ts hts (by simpa using hlen) c hp hw hst r hrx
  | cons p left ih =>
    cases sqls with
    | nil => simp at hlen; omega
    | cons q sqls =>
      have f : Spec.frameCount (0x03 :: utf8 q) = 1 :=
        frameCount_short _ (by rw [List.length_cons]; exact hsql q (List.mem_cons_self ..))
      have fp : Spec.frameCount p = 1 := frameCount_short _ (hleft p (List.mem_cons_self ..))
      have hs0 : s ≠ 1 := by
        have := hs 0 (by simp)
        simpa using this
      rw [show Spec.framesAll s (p :: left) = Spec.frames s p ++ Spec.framesAll (s + 1) left by
        simp only [Spec.framesAll, fp]; rfl, rxOf_append, List.append_assoc] at hrx
      have k : executeQuery q c = (.err (.protocol .outOfSync), { c with
          tx := c.tx ++ Spec.frames 0 (0x03 :: utf8 q)
          seqId := 1
          rx := rxOf (Spec.framesAll (s + 1) left) ++ (rxOf (toldAnswers ts) ++ r) }) := by
        unfold executeQuery
        rw [SM.bind_of_ok (executeCommand_clean .query (utf8 q) c hp hw)]
        rw [show Command.query.toByte = 0x03 from rfl, f]
        refine SM.bind_of_err ?_
        unfold readResponse
        exact SM.bind_of_err (readPacket_other_seq p s _ _ (hleft p (List.mem_cons_self ..)) hs0 hrx)
      unfold statements
      rw [k]
      dsimp only
      rw [List.length_cons, List.replicate_succ, List.cons_append]
      congr 1
      refine ih (fun p hp => hleft p (List.mem_cons_of_mem _ hp)) (s + 1) (fun i hi => ?_) sqls
        (fun q hq => hsql q (List.mem_cons_of_mem _ hq)) (by simp at hlen; omega) _ hp hw hst rfl
      have := hs (i + 1) (by simp; omega)
      rw [show s + 1 + UInt8.ofNat i = s + UInt8.ofNat (i + 1) by
        rw [UInt8.ofNat_add, show UInt8.ofNat 1 = 1 from rfl, UInt8.add_comm (UInt8.ofNat i) 1, UInt8.add_assoc]]
      exact this

/-- **So after every call of a procedure with a result set**: reading its rows succeeds, and then as many statements fail
as packets were left, which is at least one. -/
theorem C94_call_violated (p : Prepared) (values : List Value) (c : Conn) (t : Spec.Table) (ts : List Spec.Table)
    (cols : List Column) (rows : List (List Spec.Datum)) (status warnings : Nat) (done : Bytes) (r : List Rx)
    (req : ExecRequest) (hp : c.pendingResult = false) (hw : c.wfaults = []) (hn : values.length = p.params)
    (hst : hasFlag32 c.data.capabilities Cap.SESSION_TRACK = false)
    (hd : DescsAs t.columns cols) (h0 : t.columns ≠ []) (hl : t.columns.length < 2 ^ 56)
    (hrows : BinRows cols rows t.rows) (hreq : ExecRequest.new (ε := Error) p.id values = .ok req) (s : UInt8)
    (hs : s = UInt8.ofNat (Spec.frameCount req.serialize)) (left : List Bytes) (after : UInt8)
    (hleft : left = Spec.callAnswer status warnings done ts) (hshort : ∀ p ∈ left, p.length < Spec.maxFrame)
    (hafter : after = Spec.seqAfter s (Spec.resultSet t.columns t.rows (status + Spec.moreResults) warnings))
    (hnum : ∀ i < left.length, after + UInt8.ofNat i ≠ 1)
    (sqls : List Str) (hsql : ∀ q ∈ sqls, (utf8 q).length + 1 < Spec.maxFrame) (as : List Told)
    (has : ∀ t ∈ as, (utf8 t.message).length < 2 ^ 64) (hlen : sqls.length = left.length + as.length)
    (hrx : c.rx = rxOf (Spec.framesAll s (Spec.callAnswer status warnings done (t :: ts))) ++ (rxOf (toldAnswers as) ++ r)) :
    left ≠ [] ∧
    ∃ c1 xs c2 ok,
      p.query values c = (.ok { columns := cols, okPacket := none }, c1) ∧
      RSet.collect (binReader mkPlain) { columns := cols, okPacket := none } c1
        = (.ok ({ columns := cols, okPacket := some ok }, xs), c2) ∧
      xs.map (List.map Spec.meaning) = rows ∧
      (statements sqls c2).1 =
        List.replicate left.length (.err (.protocol .outOfSync)) ++ as.map fun t => .ok t.ok := by
  obtain ⟨c1, xs, c2, ok, h1, h2, h3, h4, h5⟩ := C94_first_partial p values c t ts cols rows status warnings done _ req
    hp hw hn hd h0 hl hrows hreq s hs hrx
  refine ⟨?_, c1, xs, c2, ok, h1, h2, h3, ?_⟩
  · rw [hleft]
    cases ts <;> simp [Spec.callAnswer, Spec.resultSet]
  · rw [← hleft, ← hafter] at h4
    exact C94_shifted_violated left hshort after hnum sqls hsql as has hlen c2 (by rw [h5]) (by rw [h5]; exact hw)
      (by rw [h5]; exact hst) r h4

/-- a procedure without result sets leaves nothing behind: it is told what was changed, and so are the statements after it. -/
theorem C94_none (p : Prepared) (values : List Value) (c : Conn) (status warnings : Nat) (done : Told) (r : List Rx)
    (req : ExecRequest) (hp : c.pendingResult = false) (hw : c.wfaults = []) (hn : values.length = p.params)
    (hst : hasFlag32 c.data.capabilities Cap.SESSION_TRACK = false)
    (hreq : ExecRequest.new (ε := Error) p.id values = .ok req) (hm : (utf8 done.message).length < 2 ^ 64)
    (sqls : List Str) (hsql : ∀ q ∈ sqls, (utf8 q).length + 1 < Spec.maxFrame) (as : List Told)
    (has : ∀ t ∈ as, (utf8 t.message).length < 2 ^ 64) (hlen : sqls.length = as.length)
    (hrx : c.rx = rxOf (Spec.framesAll (UInt8.ofNat (Spec.frameCount req.serialize))
      (Spec.callAnswer status warnings done.packet [])) ++ (rxOf (toldAnswers as) ++ r)) :
    ∃ c1, p.execute values c = (.ok done.ok, c1) ∧ (statements sqls c1).1 = as.map fun t => .ok t.ok := by
  simp only [Spec.callAnswer, Spec.framesAll, List.append_nil] at hrx
  obtain ⟨q, cmds, h⟩ := C15_statement_execute (c := c) (a := done.rows) (l := done.lastId) (status := done.status)
    (warnings := done.warnings) (msg := done.message) (r := rxOf (toldAnswers as) ++ r) p values req hp hw hn hreq hm hst hrx
  exact ⟨_, h, statements_answered sqls hsql as has hlen _ hp hw hst r rfl⟩

/-- **Worse**: if the OK packet of the procedure happens to have the number 1 (as with 253 rows of one column), it is taken
for the answer of the next statement, and there is no error at all. -/
theorem C94_told_violated (done : Told) (sqls : List Str)
    (hsql : ∀ q ∈ sqls, (utf8 q).length + 1 < Spec.maxFrame) (ts : List Told)
    (hts : ∀ t ∈ done :: ts, (utf8 t.message).length < 2 ^ 64) (hlen : sqls.length = 1 + ts.length) (c : Conn)
    (hp : c.pendingResult = false) (hw : c.wfaults = [])
    (hst : hasFlag32 c.data.capabilities Cap.SESSION_TRACK = false) (r : List Rx)
    (hrx : c.rx = rxOf (Spec.framesAll 1 (Spec.callAnswer 2 0 done.packet [])) ++ (rxOf (toldAnswers ts) ++ r)) :
    (statements sqls c).1 = (done :: ts).map fun t => .ok t.ok := by
  refine statements_answered sqls hsql (done :: ts) hts (by simp; omega) c hp hw hst r ?_
  rw [hrx]
  unfold toldAnswers Spec.callAnswer
  rw [List.flatMap_cons, rxOf_append, List.append_assoc]
  simp [Spec.framesAll]

namespace C94ex

def desc : Spec.ColDesc :=
  { db := [], table := [], orgTable := [], name := "n".toList, orgName := "n".toList,
    charset := 63, length := 11, code := 3, flags := 0, decimals := 0 }

/-- a result set of one column with `n` rows, each of them the number 7. -/
def sevens (n : Nat) : Spec.Table := { columns := [desc], rows := List.replicate n [0, 0, 7, 0, 0, 0] }

def told (n : UInt64) : Told := { rows := n, lastId := 0, status := 2, warnings := 0, message := [] }

/-- call a procedure with these result sets and read the rows, then execute three statements, which change 11, 12 and 13
rows; the procedure itself reports 0. How many rows were read, and what is reported. -/
def run (ts : List Spec.Table) : Option (Nat × List (Option Nat)) :=
  let c := { exConn [] with rx := rxOf (Spec.framesAll 1 (Spec.callAnswer 2 0 (told 0).packet ts) ++
    toldAnswers [told 11, told 12, told 13]) }
  match ({ id := 1, params := 0 } : Prepared).query [] c with
  | (.ok rs, c) =>
    match rs.collect (binReader mkPlain) c with
    | (.ok (_, rows), c) => some (rows.length, (statements [['a'], ['b'], ['c']] c).1.map fun
      | .ok o => some o.affectedRows.toNat
      | _ => none)
    | _ => none
  | _ => none

end C94ex

open C94ex in
/-- a procedure without result sets does no harm; with one of two rows the first statement fails and the others are told
the answers of their predecessors; with two result sets nothing is right any more; with one of 253 rows everybody is
told the answer of the predecessor, without an error. -/
theorem C94_example :
    run [] = some (0, [some 11, some 12, some 13]) ∧
    run [sevens 2] = some (2, [none, some 11, some 12]) ∧
    run [sevens 2, sevens 0] = some (2, [none, none, none]) ∧
    run [sevens 253] = some (253, [some 0, some 11, some 12]) := by
  refine ⟨?_, ?_, ?_, ?_⟩ <;> decide +kernel

end Verif

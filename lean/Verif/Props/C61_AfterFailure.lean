import Verif.Props.C56_Dialog
import Verif.Props.C60_OldEof
import Verif.Props.C04_OutOfSync

/-!
# C61 — a call that fails leaves the connection usable

After a call that returned an error (other than a failure of the stream) the following calls behave as
on a connection on which the failed call never happened.  False for `execute_query` and `execute` when
the command answers with rows: the rows stay on the stream and nothing marks the connection as busy.
-/

namespace Verif

/-- What holds: a failed call does no harm if the command's answer was of the shape the call expects
(an OK or ERR packet for `execute_query` and `execute`, those or a result set for `query`, the
description of a statement or ERR for `prepare`) — whatever is in it.  So neither a server error nor
a row that cannot be decoded, nor rows left unread change what the following calls return: for every
list of calls that came before, every call after returns what it returns alone.
Missing: see `C61_desync_violated`. -/
theorem C61_usable_partial {R : Type} (c : Conn) (hp : c.pendingResult = false) (hw : c.wfaults = [])
    (before : List (Step R × List Bytes)) (x : Step R) (ps : List Bytes)
    (h : ∀ y ∈ before, y.1.Answered y.2) (hx : x.Answered ps) (r : List Rx)
    (hrx : c.rx = (before.map fun y => y.1.wire y.2).flatten ++ x.wire ps ++ r) :
    (runSteps (before.map Prod.fst ++ [x]) c).1.getLast?
      = some (x.run { c with rx := x.wire ps }).1 := by
  have e := C56_answers_partial c hp hw (before ++ [(x, ps)])
    (by
      intro y hy
      rcases List.mem_append.1 hy with hy | hy
      · exact h y hy
      · rw [List.mem_singleton.1 hy]; exact hx)
    r (by simpa using hrx)
  rw [List.map_append] at e
  rw [show before.map Prod.fst ++ [x] = before.map Prod.fst ++ [(x, ps)].map Prod.fst from rfl, e]
  simp

theorem readPacket_other_seq (q : Bytes) (s : UInt8) (c : Conn) (r : List Rx)
    (hq : q.length < Spec.maxFrame) (hs : s ≠ c.seqId) (h : c.rx = rxOf (Spec.frames s q) ++ r) :
    readPacket c = (.err (.protocol .outOfSync), { c with rx := r }) := by
  refine C04_wrong_first_seq q s r c (by unfold Spec.maxFrame at hq; omega) hs ?_
  rw [h]
  unfold Spec.frames
  rw [if_pos hq]
  rfl

theorem lenenc_length (n : Nat) : (Spec.lenenc n).length ≤ 9 := by
  unfold Spec.lenenc
  split
  · simp
  · split
    · simp [spec_le_eq, length_leBytes]
    · split <;> simp [spec_le_eq, length_leBytes]

/-- **C61 is false**, for every result set (with a first column description below 16 MiB), every
connection in order and every pair of statements below 16 MiB: `execute_query` of a command that
answers with rows returns the error `UnexpectedPacket`; the next `execute_query` is sent to the server,
but fails with `OutOfSync` whatever the server answers. -/
theorem C61_desync_violated (c : Conn) (hp : c.pendingResult = false) (hw : c.wfaults = [])
    (sql1 sql2 : Str) (h1 : (utf8 sql1).length + 1 < Spec.maxFrame)
    (h2 : (utf8 sql2).length + 1 < Spec.maxFrame) (d : Spec.ColDesc) (ds : List Spec.ColDesc)
    (rows : List Bytes) (status warnings : Nat) (hl : (d :: ds).length < 2 ^ 56)
    (hd : (Spec.colDef d).length < Spec.maxFrame) (r : List Rx)
    (hrx : c.rx = rxOf (Spec.framesAll 1 (Spec.resultSet (d :: ds) rows status warnings)) ++ r) :
    (executeQuery sql1 c).1
      = .err (.protocol (.unexpectedPacket (Spec.lenenc (d :: ds).length))) ∧
    (executeQuery sql2 (executeQuery sql1 c).2).1 = .err (.protocol .outOfSync) ∧
    (executeQuery sql2 (executeQuery sql1 c).2).2.tx
      = c.tx ++ Spec.commands [0x03 :: utf8 sql1, 0x03 :: utf8 sql2] := by
  obtain ⟨b, t, e, n0, -, n2⟩ := lenenc_head (d :: ds).length (by simp) (Nat.lt_of_lt_of_le hl (by decide))
  have f1 : Spec.frameCount (0x03 :: utf8 sql1) = 1 := frameCount_short _ (by rw [List.length_cons]; exact h1)
  have f2 : Spec.frameCount (0x03 :: utf8 sql2) = 1 := frameCount_short _ (by rw [List.length_cons]; exact h2)
  have f3 : Spec.frameCount (Spec.lenenc (d :: ds).length) = 1 :=
    frameCount_short _ (by have := lenenc_length (d :: ds).length; unfold MAX_PAYLOAD_LEN; omega)
  -- the packets after the first
  let ps : List Bytes := ds.map Spec.colDef ++ rows ++ [Spec.terminator status warnings]
  have hr : Spec.framesAll 1 (Spec.resultSet (d :: ds) rows status warnings)
      = Spec.frames 1 (Spec.lenenc (d :: ds).length) ++ (Spec.frames 2 (Spec.colDef d) ++
          Spec.framesAll (2 + UInt8.ofNat (Spec.frameCount (Spec.colDef d))) ps) := by
    unfold Spec.resultSet
    rw [List.map_cons, List.cons_append, List.cons_append, List.cons_append]
    simp only [Spec.framesAll]
    rw [f3]
    rfl
  rw [hr, rxOf_append, rxOf_append, List.append_assoc, List.append_assoc] at hrx
  generalize hrest : rxOf (Spec.framesAll (2 + UInt8.ofNat (Spec.frameCount (Spec.colDef d))) ps) ++ r
    = rest at hrx
  -- the first call
  let c1 : Conn := { c with
    tx := c.tx ++ Spec.frames 0 (0x03 :: utf8 sql1)
    seqId := 2
    rx := rxOf (Spec.frames 2 (Spec.colDef d)) ++ rest }
  have k1 : executeQuery sql1 c
      = (.err (.protocol (.unexpectedPacket (Spec.lenenc (d :: ds).length))), c1) := by
    unfold executeQuery
    rw [SM.bind_of_ok (executeCommand_clean .query (utf8 sql1) c hp hw)]
    rw [show Command.query.toByte = 0x03 from rfl, f1]
    refine SM.bind_of_err ?_
    unfold readResponse
    rw [SM.bind_of_ok (readPacket_frames (Spec.lenenc (d :: ds).length) _ _ hrx), f3]
    unfold decodeResponse
    rw [SM.get_bind_apply, e]
    dsimp only
    rw [if_neg n0, if_neg n2]
    rfl
  -- the second call
  have k2 := readPacket_other_seq (Spec.colDef d) 2
    { c1 with tx := c1.tx ++ Spec.frames 0 (0x03 :: utf8 sql2), seqId := 1 } rest hd (show (2 : UInt8) ≠ 1 by decide) rfl
  have k3 : executeQuery sql2 c1 = (.err (.protocol .outOfSync), { c1 with
      tx := c1.tx ++ Spec.frames 0 (0x03 :: utf8 sql2)
      seqId := 1
      rx := rest }) := by
    unfold executeQuery
    rw [SM.bind_of_ok (executeCommand_clean .query (utf8 sql2) c1 hp hw)]
    rw [show Command.query.toByte = 0x03 from rfl, f2]
    refine SM.bind_of_err ?_
    unfold readResponse
    exact SM.bind_of_err k2
  rw [k1]
  dsimp only
  rw [k3]
  refine ⟨rfl, rfl, ?_⟩
  show c.tx ++ _ ++ _ = _
  simp [Spec.commands, List.append_assoc]

/-- what a series of `execute_query` returns: the number of affected rows, or none on an error. -/
def C61.affected (sqls : List String) (c : Conn) : List (Option Nat) :=
  (sqls.foldl (fun (acc : List (Option Nat) × Conn) sql =>
    match executeQuery sql.toList acc.2 with
    | (.ok ok, c') => (acc.1 ++ [some ok.affectedRows.toNat], c')
    | (_, c') => (acc.1 ++ [none], c')) ([], c)).1

/-- **Worse**: once the rows of the first command are used up, the answers are attributed to the wrong
commands.  The select answers with one row; the updates that follow affect 11, 12, … rows.  Three of
them are reported as failed (they were executed), and the fourth is reported with the 11 rows of the
first. -/
theorem C61_misattributed_violated :
    C61.affected ["select", "update 1", "update 2", "update 3", "update 4"]
      { exConn [] with rx := rxOf (
          Spec.framesAll 1 (Spec.resultSet [C60.desc] [Spec.textCells [some [0x61]]] 2 0) ++
          Spec.frames 1 (C56.okRows 11) ++ Spec.frames 1 (C56.okRows 12) ++
          Spec.frames 1 (C56.okRows 13) ++ Spec.frames 1 (C56.okRows 14)) }
      = [none, none, none, none, some 11] := by decide +kernel

-- an error of the server does no harm: the update after a failed one is reported correctly
example :
    C61.affected ["update 1", "update 2"]
      { exConn [] with rx := rxOf (
          Spec.frames 1 (Spec.errPacket 1064 (some [0x34, 0x32, 0x30, 0x30, 0x30]) "syntax".toList) ++
          Spec.frames 1 (C56.okRows 12)) }
      = [none, some 12] := by decide +kernel

end Verif

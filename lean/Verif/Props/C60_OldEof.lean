import Verif.Props.C56_Dialog

/-!
# C60 — result sets of a server without CLIENT_DEPRECATE_EOF

The client negotiates `CLIENT_DEPRECATE_EOF` only if the server offers it and `next`/`cleanup` have a
branch for connections without it.  Such a server puts an EOF packet after the column definitions
and ends the rows with another one.  False for the code: no such result set can be read.
-/

namespace Verif

/-- Spec: the packets of a result set for a client without `CLIENT_DEPRECATE_EOF`. -/
def Spec.oldResultSet (cols : List Spec.ColDesc) (rows : List Bytes) (status warnings : Nat) :
    List Bytes :=
  Spec.lenenc cols.length :: cols.map Spec.colDef ++ [Spec.oldEof status warnings] ++ rows ++
    [Spec.oldEof status warnings]

theorem ignoreLenenc_four (w0 w1 s0 s1 : UInt8) : ∃ r : Bytes, r.length ≤ 3 ∧
    SM.ignore P.checkedEatLenencInt [w0, w1, s0, s1] = (.ok (), r) := by
  have h1 : P.checkedEatU8 [w0, w1, s0, s1] = (.ok w0, [w1, s0, s1]) := by
    have : P.checkedEatU8 [w0, w1, s0, s1] = (.ok (UInt8.ofNat (leNat [w0])), [w1, s0, s1]) := rfl
    rw [this]
    have : leNat [w0] = w0.toNat := by simp [leNat]
    rw [this, UInt8.ofNat_toNat]
  unfold SM.ignore P.checkedEatLenencInt
  rw [SM.bind_of_ok h1]
  by_cases a : w0.toNat ≤ 0xfa
  · rw [if_pos a]; exact ⟨[w1, s0, s1], by simp, rfl⟩
  · rw [if_neg a]
    by_cases b : w0 = 0xfc
    · rw [if_pos b]; exact ⟨[s1], by simp, rfl⟩
    · rw [if_neg b]
      by_cases c : w0 = 0xfd
      · rw [if_pos c]; exact ⟨[], by simp, rfl⟩
      · rw [if_neg c]
        by_cases d : w0 = 0xfe
        · rw [if_pos d]; exact ⟨[w1, s0, s1], by simp, rfl⟩
        · rw [if_neg d]; exact ⟨[w1, s0, s1], by simp, rfl⟩

theorem readTail_short (caps : UInt32) (r : Bytes) (h : r.length ≤ 3) :
    (OkPacket.readTail caps 0 0 r).1 = .err .eof := by
  match r, h with
  | [], _ => rfl
  | [a], _ => rfl
  | [a, b], _ => rfl
  | [a, b, c], _ => rfl

/-- `read_eof` never understands an EOF packet. -/
theorem readEof_oldEof (caps : UInt32) (status warnings : Nat) :
    runP (OkPacket.readEof caps) (Spec.oldEof status warnings) = .err .eof := by
  have e : ∃ w0 w1 s0 s1, Spec.oldEof status warnings = [0xFE, w0, w1, s0, s1] := by
    unfold Spec.oldEof
    exact ⟨_, _, _, _, rfl⟩
  obtain ⟨w0, w1, s0, s1, e⟩ := e
  have h1 : SM.ignore P.checkedEatLenencInt [0xFE, w0, w1, s0, s1] = (.ok (), [w0, w1, s0, s1]) := rfl
  obtain ⟨r, hr, h2⟩ := ignoreLenenc_four w0 w1 s0 s1
  unfold runP OkPacket.readEof
  rw [e, SM.bind_of_ok h1, SM.bind_of_ok h2]
  exact readTail_short caps r hr

theorem isLast_oldEof (caps : UInt32) (status warnings : Nat) :
    isLast caps (Spec.oldEof status warnings) = .ok true := by
  unfold Spec.oldEof isLast
  simp only [List.cons_append, List.nil_append]
  split <;> simp [MAX_PAYLOAD_LEN, spec_le_eq, length_leBytes]

theorem frameCount_oldEof (status warnings : Nat) :
    Spec.frameCount (Spec.oldEof status warnings) = 1 := by
  unfold Spec.frameCount Spec.oldEof
  simp [spec_le_eq, length_leBytes, Spec.maxFrame]

/-- What holds: the column descriptions are right.  For every description of at least one column, every
rows: reading the head of the result set yields the columns described and leaves the rest on the
stream.
Missing: everything after it, see `C60_rows_violated`. -/
theorem C60_columns_partial (ds : List Spec.ColDesc) (cols : List Column) (c : Conn) (s : UInt8)
    (rows : List Bytes) (status warnings : Nat) (r : List Rx) (h : DescsAs ds cols) (h0 : ds ≠ [])
    (hl : ds.length < 2 ^ 56) :
    RSet.read (c.feed s (Spec.oldResultSet ds rows status warnings) r)
      = (.ok { columns := cols, okPacket := none },
         { c.feed (Spec.seqAfter s (headPackets ds))
             (Spec.oldEof status warnings :: rows ++ [Spec.oldEof status warnings]) r with
           pendingResult := true }) := by
  have e : Spec.oldResultSet ds rows status warnings
      = headPackets ds ++ (Spec.oldEof status warnings :: rows ++ [Spec.oldEof status warnings]) := by
    unfold Spec.oldResultSet headPackets
    simp
  rw [e]
  exact read_head ds cols c s _ r h h0 hl

theorem next_oldEof {R : Type} (rd : RowReader R) (rs : RSet) (c : Conn) (s : UInt8)
    (status warnings : Nat) (ps : List Bytes) (r : List Rx) (hrs : rs.okPacket = none) :
    rs.next rd (c.feed s (Spec.oldEof status warnings :: ps) r)
      = (.err (.protocol .eof), c.feed (s + 1) ps r) := by
  have hf := frameCount_oldEof status warnings
  unfold RSet.next
  rw [hrs, if_neg (by simp), SM.bind_of_ok (readPacket_feed c s _ ps r), SM.get_bind_apply,
    isLast_oldEof, SM.ofOut_ok_bind_apply, if_pos rfl, readEof_oldEof, hf]
  rfl

/-- **C60 is false**, for every such result set: whatever the columns and rows are (even none), the
first `next` and `collect` fail with "unexpected end of buffer". -/
theorem C60_rows_violated {R : Type} (rd : RowReader R) (ds : List Spec.ColDesc) (cols : List Column)
    (c : Conn) (s : UInt8) (rows : List Bytes) (status warnings : Nat) (r : List Rx)
    (h : DescsAs ds cols) (h0 : ds ≠ []) (hl : ds.length < 2 ^ 56) :
    ((RSet.read >>= fun rs => rs.next rd)
        (c.feed s (Spec.oldResultSet ds rows status warnings) r)).1 = .err (.protocol .eof) ∧
    ((RSet.read >>= fun rs => rs.collect rd)
        (c.feed s (Spec.oldResultSet ds rows status warnings) r)).1 = .err (.protocol .eof) := by
  have hn := next_oldEof rd { columns := cols, okPacket := none } { c with pendingResult := true }
    (Spec.seqAfter s (headPackets ds)) status warnings (rows ++ [Spec.oldEof status warnings]) r rfl
  constructor
  · rw [SM.bind_of_ok (C60_columns_partial ds cols c s rows status warnings r h h0 hl)]
    exact congrArg Prod.fst hn
  · rw [SM.bind_of_ok (C60_columns_partial ds cols c s rows status warnings r h h0 hl)]
    unfold RSet.collect RSet.collectLoop
    exact congrArg Prod.fst (SM.bind_of_err hn)

/-- the next command fails too and is not sent; the rows of the abandoned result set and its second
EOF packet stay on the stream although the connection no longer counts as busy. -/
theorem C60_next_command_violated (cmd : Command) (data : Bytes) (c : Conn) (s : UInt8)
    (rows : List Bytes) (status warnings : Nat) (r : List Rx) (hp : c.pendingResult = true) :
    executeCommand cmd data
        (c.feed s (Spec.oldEof status warnings :: rows ++ [Spec.oldEof status warnings]) r)
      = (.err (.protocol .eof),
         { c.feed (s + 1) (rows ++ [Spec.oldEof status warnings]) r with pendingResult := false }) := by
  have hf := frameCount_oldEof status warnings
  unfold executeCommand
  refine SM.bind_of_err ?_
  unfold cleanup
  rw [if_pos (show (c.feed _ _ r).pendingResult = true from hp)]
  refine SM.bind_of_err ?_
  unfold cleanupLoop
  rw [List.cons_append, SM.bind_of_ok (readPacket_feed c s _ _ r), SM.get_bind_apply, isLast_oldEof,
    SM.ofOut_ok_bind_apply, if_pos rfl, SM.modify_bind_apply, readEof_oldEof, hf]
  rfl

/-- a connection to a server without the capability (4.1 protocol, plugin authentication). -/
def C60.conn : Conn :=
  let c := exConn []
  { c with data := { c.data with capabilities := 0x0008_8200 }, seqId := 0 }

/-- one column of type VARCHAR. -/
def C60.desc : Spec.ColDesc :=
  { db := ['d'], table := ['t'], orgTable := ['t'], name := ['s'], orgName := ['s'],
    charset := 45, length := 40, code := 253, flags := 0, decimals := 0 }

-- a whole query: the command is sent, the answer has one row and cannot be collected
example :
    ((query "select s from t".toList >>= fun rs => rs.collect (textReader C56.noFloats mkPlain))
      { C60.conn with rx := rxOf (Spec.framesAll 1 (Spec.oldResultSet [C60.desc]
          [Spec.textCells [some [0x61]]] 2 0)) }).1
      = .err (.protocol .eof) := by decide +kernel

-- the same answer with DEPRECATE_EOF, as a server with the capability sends it, is collected
example :
    ((query "select s from t".toList >>= fun rs =>
        rs.collect (textReader C56.noFloats mkPlain) >>= fun x => pure x.2)
      { exConn [] with seqId := 0, rx := rxOf (Spec.framesAll 1 (Spec.resultSet [C60.desc]
          [Spec.textCells [some [0x61]]] 2 0)) }).1
      = .ok [[.bytes [0x61]]] := by decide +kernel

end Verif

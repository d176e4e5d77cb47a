import Verif.Proofs.NarrowSame

/-!
# C105 A program on a target with addresses of 32 bits does what it does on one with 64
-/

namespace Verif

open Spec (Short Tame Wide Usual UsualStream OkAlike SetAlike)

/-- **C105**: a text with its length before it is read the same way on both targets, unless the length needs more than 32
bits.  Then a target with 64 bits finds that the packet is too short, and one with 32 bits takes the length without its
upper half. -/
theorem C105_lengths :
    (∀ s, ¬ Wide s → Narrow.checkedEatLenencSlice s = P.checkedEatLenencSlice s ∧
      Narrow.checkedEatLenencStr s = P.checkedEatLenencStr s) ∧
    (∀ n r, 2 ^ 32 ≤ n → n < 2 ^ 64 → Short r →
      P.checkedEatLenencSlice (0xFE :: Spec.le 8 n ++ r) = (.err .eof, r) ∧
      Narrow.checkedEatLenencSlice (0xFE :: Spec.le 8 n ++ r) =
        if n % 2 ^ 32 ≤ r.length then (.ok (r.take (n % 2 ^ 32)), r.drop (n % 2 ^ 32)) else (.err .eof, r)) := by
  refine ⟨fun s h => ⟨Narrow.slice_same h, Narrow.str_same h⟩, fun n r h1 h2 hr => ?_⟩
  obtain ⟨e1, e2⟩ := Narrow.slice_wide n h2 r
  rw [e1, e2]
  unfold P.checkedEat P.eat
  refine ⟨if_neg (by unfold Short at hr; omega), ?_⟩
  split
  · rfl
  · rfl

/-- the length 2^32 + 1: on one target nothing is read, on the other a single byte. -/
example : P.checkedEatLenencSlice [0xFE, 1, 0, 0, 0, 1, 0, 0, 0, 0x41, 0x42] = (.err .eof, [0x41, 0x42]) ∧
    Narrow.checkedEatLenencSlice [0xFE, 1, 0, 0, 0, 1, 0, 0, 0, 0x41, 0x42] = (.ok [0x41], [0x42]) := by decide +kernel

/-- **C105** (partial): a row that is accepted on a target with 64 bits is accepted with the same values on one with 32.
The converse is false, see `C105_rows_violated`. -/
theorem C105_rows_partial (fp : FloatParse) (p : Bytes) (hp : Short p) (cols : List Column) (vs : List Value) :
    (readTextRow fp p cols = .ok vs → Narrow.readTextRow fp p cols = .ok vs) ∧
    (readBinRow p cols = .ok vs → Narrow.readBinRow p cols = .ok vs) :=
  ⟨Narrow.readTextRow_ok fp hp, Narrow.readBinRow_ok hp⟩

namespace C105ex

/-- a column of this type. -/
def col (t : ColumnType) : Column :=
  { orgName := [], name := "n".toList, orgTable := [], table := [], type := t, flags := 0 }

def fp : FloatParse := { f32 := fun _ => none, f64 := fun _ => none }

/-- a result set with two columns of type VARCHAR, of which nothing has been read. -/
def rs : RSet := { columns := [col .varchar, col .varchar], okPacket := none }

/-- the connection waits for these rows. -/
def conn (ps : List Bytes) : Conn := { exConn (Spec.framesAll 1 ps) with
  seqId := 1
  pendingResult := true }

end C105ex

open C105ex in
/-- **C105** is false of malformed rows: one that claims a cell of 2^32 + 1 bytes, and has one, is refused with 64 bits;
with 32 bits the program sees the cell `A`, in either protocol. -/
theorem C105_rows_violated :
    readTextRow fp [0xFE, 1, 0, 0, 0, 1, 0, 0, 0, 0x41] [col .varchar] = .err .eof ∧
    Narrow.readTextRow fp [0xFE, 1, 0, 0, 0, 1, 0, 0, 0, 0x41] [col .varchar] = .ok [.bytes [0x41]] ∧
    readBinRow [0, 0, 0xFE, 1, 0, 0, 0, 1, 0, 0, 0, 0x41] [col .varchar] = .err .eof ∧
    Narrow.readBinRow [0, 0, 0xFE, 1, 0, 0, 0, 1, 0, 0, 0, 0x41] [col .varchar] = .ok [.bytes [0x41]] := by
  decide +kernel

/-- both targets read the same row with a number, a text and NULL. -/
example : readTextRow C105ex.fp [1, 55, 2, 0x41, 0x42, 0xFB] [C105ex.col .long, C105ex.col .varchar, C105ex.col .long] =
      .ok [.int 7, .bytes [0x41, 0x42], .null] ∧
    Narrow.readTextRow C105ex.fp [1, 55, 2, 0x41, 0x42, 0xFB] [C105ex.col .long, C105ex.col .varchar, C105ex.col .long] =
      .ok [.int 7, .bytes [0x41, 0x42], .null] := by decide +kernel

/-- **C105**: OK packets and ends of results are refused on both targets with the same error, or accepted on both; the
numbers, status and warnings are the same for every packet, and so is a message that is found with 64 bits. -/
theorem C105_ok (caps : UInt32) (p : Bytes) (hp : Short p) :
    ((∃ e, runP (OkPacket.readOk caps) p = .err e ∧ runP (Narrow.readOk caps) p = .err e) ∨
      ∃ ok ok', runP (OkPacket.readOk caps) p = .ok ok ∧ runP (Narrow.readOk caps) p = .ok ok' ∧ OkAlike ok ok') ∧
    ((∃ e, runP (OkPacket.readEof caps) p = .err e ∧ runP (Narrow.readEof caps) p = .err e) ∨
      ∃ ok ok', runP (OkPacket.readEof caps) p = .ok ok ∧ runP (Narrow.readEof caps) p = .ok ok' ∧ OkAlike ok ok') :=
  ⟨Narrow.readOk_both caps p hp, Narrow.readEof_both caps p hp⟩

theorem Narrow.optStr_spec {s : Str} (r : Bytes) (h : (utf8 s).length < 2 ^ 32) :
    Narrow.optStr (Spec.lenencStr (utf8 s) ++ r) = Verif.optStr (Spec.lenencStr (utf8 s) ++ r) := by
  have h64 : (utf8 s).length < 2 ^ 64 := by omega
  unfold Narrow.optStr Verif.optStr
  have e : P.checkedEatLenencSlice (Spec.lenencStr (utf8 s) ++ r) = (.ok (utf8 s), r) := by
    unfold P.checkedEatLenencSlice Spec.lenencStr
    rw [List.append_assoc, SM.bind_of_ok (P.checkedEatLenencInt_spec _ h64), UInt64.toNat_ofNat_of_lt' h64]
    simp [P.checkedEat, P.eat]
  have e' : Narrow.checkedEatLenencSlice (Spec.lenencStr (utf8 s) ++ r) = (.ok (utf8 s), r) := by
    unfold Narrow.checkedEatLenencSlice Spec.lenencStr Narrow.usize
    rw [List.append_assoc, SM.bind_of_ok (P.checkedEatLenencInt_spec _ h64), UInt64.toNat_ofNat_of_lt' h64,
      Nat.mod_eq_of_lt h]
    simp [P.checkedEat, P.eat]
  have : Narrow.checkedEatLenencStr (Spec.lenencStr (utf8 s) ++ r) =
      P.checkedEatLenencStr (Spec.lenencStr (utf8 s) ++ r) := by
    unfold Narrow.checkedEatLenencStr P.checkedEatLenencStr
    rw [SM.bind_of_ok e, SM.bind_of_ok e']
    rfl
  rw [SM.bind_apply, SM.bind_apply]
  unfold SM.attempt
  rw [this]
  rfl

theorem Narrow.readOk_head (caps : UInt32) (a l : UInt64) (status warnings : UInt16) (rest : Bytes) :
    Narrow.readOk caps ([0x00] ++ Spec.lenenc a.toNat ++ Spec.lenenc l.toNat ++
        (Spec.le 2 status.toNat ++ (Spec.le 2 warnings.toNat ++ rest))) =
      (do
        let message ← Narrow.optStr
        let info ←
          if hasFlag32 caps Cap.SESSION_TRACK &&
              hasFlag16 (statusTruncate status) Status.SESSION_STATE_CHANGED then Narrow.optStr
          else pure none
        pure { affectedRows := a, lastInsertId := l, status := statusTruncate status,
               warnings := warnings, message := message, sessionStateInfo := info } : P OkPacket) rest := by
  unfold Narrow.readOk
  rw [List.append_assoc, List.append_assoc, List.singleton_append,
    SM.bind_of_ok (P.checkedEatU8_of (spec_readInt_cons _ _))]
  rw [if_neg (by decide)]
  rw [SM.bind_of_ok (P.checkedEatLenencInt_spec _ a.toNat_lt),
    SM.bind_of_ok (P.checkedEatLenencInt_spec _ l.toNat_lt)]
  simp only [UInt64.ofNat_toNat]
  unfold Narrow.readTail
  rw [SM.bind_of_ok (P.checkedEatU16_of (spec_readInt_le _ (by have := status.toNat_lt; omega)))]
  dsimp only
  rw [SM.bind_of_ok (P.checkedEatU16_of (spec_readInt_le _ (by have := warnings.toNat_lt; omega)))]
  simp only [UInt16.ofNat_toNat]

/-- **C105**: what a server sends as OK packet, with a message and with the session state, reads the same on both. -/
theorem C105_ok_sent (caps : UInt32) (a l : UInt64) (status warnings : UInt16) (msg info : Str)
    (hm : (utf8 msg).length < 2 ^ 32) (hi : (utf8 info).length < 2 ^ 32) :
    runP (Narrow.readOk caps) (Spec.okPacketTracked a.toNat l.toNat status.toNat warnings.toNat msg info) =
      runP (OkPacket.readOk caps) (Spec.okPacketTracked a.toNat l.toNat status.toNat warnings.toNat msg info) ∧
    runP (Narrow.readOk caps) (Spec.okPacket a.toNat l.toNat status.toNat warnings.toNat msg) =
      runP (OkPacket.readOk caps) (Spec.okPacket a.toNat l.toNat status.toNat warnings.toNat msg) := by
  have hm64 : (utf8 msg).length < 2 ^ 64 := by omega
  have hi64 : (utf8 info).length < 2 ^ 64 := by omega
  have nil : Narrow.optStr [] = (.ok none, []) := rfl
  constructor
  · unfold runP Spec.okPacketTracked
    rw [List.append_assoc, List.append_assoc, List.append_assoc, Narrow.readOk_head, Verif.readOk_head, readTail_spec,
      SM.bind_of_ok ((Narrow.optStr_spec _ hm).trans (optStr_spec _ hm64)), SM.bind_of_ok (optStr_spec _ hm64)]
    split
    · rw [← List.append_nil (Spec.lenencStr (utf8 info)),
        SM.bind_of_ok ((Narrow.optStr_spec _ hi).trans (optStr_spec _ hi64)), SM.bind_of_ok (optStr_spec _ hi64)]
    · rfl
  · unfold runP Spec.okPacket
    rw [List.append_assoc, List.append_assoc, Narrow.readOk_head, Verif.readOk_head, readTail_spec]
    by_cases h : msg = []
    · rw [if_pos h, SM.bind_of_ok nil, SM.bind_of_ok optStr_nil]
      split
      · rw [SM.bind_of_ok nil, SM.bind_of_ok optStr_nil]
      · rfl
    · rw [if_neg h, ← List.append_nil (Spec.lenencStr _),
        SM.bind_of_ok ((Narrow.optStr_spec _ hm).trans (optStr_spec _ hm64)), SM.bind_of_ok (optStr_spec _ hm64)]
      split
      · rw [SM.bind_of_ok nil, SM.bind_of_ok optStr_nil]
      · rfl

example : (runP (Narrow.readOk 0x0180_8200) (Spec.okPacketTracked 1 0 0x4002 0 [] "db".toList)).map'
    (fun p => (p.message, p.sessionStateInfo)) = .ok (none, some "db".toList) := by decide +kernel

/-- **C105** is false of malformed OK packets: one whose message claims to have 2^32 + 1 bytes has no message on a target
with 64 bits, and the message `A` on one with 32. -/
theorem C105_ok_violated :
    (runP (OkPacket.readOk 0) [0, 0, 0, 2, 0, 0, 0, 0xFE, 1, 0, 0, 0, 1, 0, 0, 0, 0x41]).map' OkPacket.message = .ok none ∧
    (runP (Narrow.readOk 0) [0, 0, 0, 2, 0, 0, 0, 0xFE, 1, 0, 0, 0, 1, 0, 0, 0, 0x41]).map' OkPacket.message =
      .ok (some "A".toList) := by
  decide +kernel

/-- **C105**: an error of the server that is understood on a target with 64 bits is the same on one with 32; only reports
of progress contain a length at all, all other errors are the same for every packet. -/
theorem C105_errors (caps : UInt32) (p : Bytes) (hp : Short p) :
    (∀ e, runP (ErrPacket.deserialize caps) p = .ok e → runP (Narrow.errPacket caps) p = .ok e) ∧
    ((¬ ∃ r, p = 0xFF :: 0xFF :: 0xFF :: r) → runP (Narrow.errPacket caps) p = runP (ErrPacket.deserialize caps) p) := by
  constructor
  · intro e h
    obtain ⟨e', h', rfl⟩ := Narrow.decode_err (caps := caps) hp e h
    exact h'
  · intro hn
    match p with
    | [] => rfl
    | [_] => rfl
    | [_, _] => rfl
    | b :: x :: y :: r =>
      have hl : ¬ (b :: x :: y :: r).length < 3 := by simp
      by_cases hb : b = 0xFF
      · subst hb
        have hc : ¬ UInt16.ofNat (leNat [x, y]) = 0xFFFF := by
          intro h
          apply hn
          refine ⟨r, ?_⟩
          have h2 : leNat [x, y] = 0xFFFF := by
            have := congrArg UInt16.toNat h
            have lt : leNat [x, y] < 2 ^ 16 := by
              have := x.toNat_lt; have := y.toNat_lt
              simp [leNat]; omega
            rw [UInt16.toNat_ofNat_of_lt' lt] at this
            simpa using this
          have hx : x = 0xFF := by
            apply UInt8.toNat.inj
            have := x.toNat_lt; have := y.toNat_lt
            simp [leNat] at h2
            show x.toNat = 255
            omega
          have hy : y = 0xFF := by
            apply UInt8.toNat.inj
            have := x.toNat_lt; have := y.toNat_lt
            simp [leNat] at h2
            show y.toNat = 255
            omega
          rw [hx, hy]
        have e1 : runP (ErrPacket.deserialize caps) (0xFF :: x :: y :: r) =
            ((if UInt16.ofNat (leNat [x, y]) = 0xFFFF ∧ hasFlag32 caps Cap.PROGRESS_OBSOLETE then
              ErrPacket.deserializeProgress
            else ErrPacket.deserializeError (UInt16.ofNat (leNat [x, y])) (hasFlag32 caps Cap.PROTOCOL_41)) r).1 := rfl
        have e2 : runP (Narrow.errPacket caps) (0xFF :: x :: y :: r) =
            ((if UInt16.ofNat (leNat [x, y]) = 0xFFFF ∧ hasFlag32 caps Cap.PROGRESS_OBSOLETE then
              Narrow.deserializeProgress
            else ErrPacket.deserializeError (UInt16.ofNat (leNat [x, y])) (hasFlag32 caps Cap.PROTOCOL_41)) r).1 := rfl
        rw [e1, e2, if_neg (fun h => hc h.1), if_neg (fun h => hc h.1)]
      · have e1 : runP (ErrPacket.deserialize caps) (b :: x :: y :: r) = .err (.unexpectedPacket (x :: y :: r)) := by
          unfold runP ErrPacket.deserialize
          have h1 : P.checkLen 3 (b :: x :: y :: r) = (.ok (), b :: x :: y :: r) := by
            unfold P.checkLen
            rw [if_neg hl]
          have h2 : P.eatU8 (b :: x :: y :: r) = (.ok b, x :: y :: r) := by
            show (Out.ok (UInt8.ofNat (b.toNat + 256 * 0)), _) = _
            simp
          rw [SM.bind_of_ok h1, SM.bind_of_ok h2, if_pos hb]
          rfl
        have e2 : runP (Narrow.errPacket caps) (b :: x :: y :: r) = .err (.unexpectedPacket (x :: y :: r)) := by
          unfold runP Narrow.errPacket
          have h1 : P.checkLen 3 (b :: x :: y :: r) = (.ok (), b :: x :: y :: r) := by
            unfold P.checkLen
            rw [if_neg hl]
          have h2 : P.eatU8 (b :: x :: y :: r) = (.ok b, x :: y :: r) := by
            show (Out.ok (UInt8.ofNat (b.toNat + 256 * 0)), _) = _
            simp
          rw [SM.bind_of_ok h1, SM.bind_of_ok h2, if_pos hb]
          rfl
        rw [e1, e2]

/-- a duplicate key, as both see it. -/
example : runP (Narrow.errPacket Cap.PROTOCOL_41) ([0xFF, 0x26, 0x04, 0x23] ++ utf8 "23000dup".toList) =
    runP (ErrPacket.deserialize Cap.PROTOCOL_41) ([0xFF, 0x26, 0x04, 0x23] ++ utf8 "23000dup".toList) ∧
    ∃ e, runP (Narrow.errPacket Cap.PROTOCOL_41) ([0xFF, 0x26, 0x04, 0x23] ++ utf8 "23000dup".toList) = .ok e :=
  ⟨by decide +kernel, _, rfl⟩

/-- what is left to read is a stream of packets that fit: everything a call on such a connection yields on a target with 64
bits it yields with 32 bits as well, and leaves the same connection. -/
def Narrow.Follows {α : Type} (R : α → α → Prop) (wide narrow : M α) : Prop :=
  ∀ c a c', Tame c → wide c = (.ok a, c') → Tame c' ∧ ∃ a', narrow c = (.ok a', c') ∧ R a a'

theorem Narrow.Alike.follows {α : Type} {R : α → α → Prop} {m m' : M α} (h : Narrow.Alike Tame Narrow.never R m m') :
    Narrow.Follows R m m' := fun c a c' hc e => (h c a c' hc e).elim False.elim id

/-- **C105** (partial): reading a result set, one row at a time, all rows at once, the first row only, or just the end:
what is read on a target with 64 bits is read with 32 bits as well, with the same rows, and the same is left in the
stream.  `rs'` is the result set as the same calls gave it on the other target.  The converse is false, see
`C105_results_violated`. -/
theorem C105_results_partial {R : Type} (fp : FloatParse) (mk : List Column → List Value → Out ParseError R) (rs rs' : RSet)
    (h : SetAlike rs rs') :
    (∀ rd rd', (rd = textReader fp mk ∧ rd' = Narrow.textReader fp mk) ∨ (rd = binReader mk ∧ rd' = Narrow.binReader mk) →
      Narrow.Follows (fun x x' => SetAlike x.1 x'.1 ∧ x'.2 = x.2) (rs.next rd) (Narrow.next rd' rs') ∧
      Narrow.Follows (fun x x' => SetAlike x.1 x'.1 ∧ x'.2 = x.2) (rs.collect rd) (Narrow.collect rd' rs') ∧
      Narrow.Follows (fun x x' => SetAlike x.1 x'.1 ∧ x'.2 = x.2) (rs.one rd) (Narrow.one rd' rs') ∧
      Narrow.Follows OkAlike (rs.finish rd) (Narrow.finish rd' rs')) := by
  intro rd rd' hr
  have hr : Narrow.ReaderAlike rd rd' := by
    rcases hr with ⟨rfl, rfl⟩ | ⟨rfl, rfl⟩
    · exact Narrow.textReader_alike fp mk
    · exact Narrow.binReader_alike mk
  exact ⟨(Narrow.next_alike hr h).follows, (Narrow.collect_alike hr h).follows, (Narrow.one_alike hr h).follows,
    (Narrow.finish_alike hr h).follows⟩

open C105ex in
/-- **C105** is false of malformed results: on a target with 64 bits the first row is refused, with 32 bits it is a row like
the next, and both are given to the program. -/
theorem C105_results_violated :
    (rs.collect (textReader fp mkPlain)
      (conn [[0, 0xFE, 1, 0, 0, 0, 1, 0, 0, 0, 0x41], [0, 1, 0x42], [0xFE, 0, 0, 2, 0, 0, 0]])).1 = .err (.protocol .eof) ∧
    ((Narrow.collect (Narrow.textReader fp mkPlain) rs
      (conn [[0, 0xFE, 1, 0, 0, 0, 1, 0, 0, 0, 0x41], [0, 1, 0x42], [0xFE, 0, 0, 2, 0, 0, 0]])).1.map' Prod.snd) =
      .ok [[.bytes [], .bytes [0x41]], [.bytes [], .bytes [0x42]]] := by
  decide +kernel

open C105ex in
/-- a regular result is the same on both. -/
example :
    ((rs.collect (textReader fp mkPlain) (conn [[0, 1, 0x41], [0, 1, 0x42], [0xFE, 0, 0, 2, 0, 0, 0]])).1.map' Prod.snd) =
      .ok [[.bytes [], .bytes [0x41]], [.bytes [], .bytes [0x42]]] ∧
    ((Narrow.collect (Narrow.textReader fp mkPlain) rs (conn [[0, 1, 0x41], [0, 1, 0x42], [0xFE, 0, 0, 2, 0, 0, 0]])).1.map'
      Prod.snd) = .ok [[.bytes [], .bytes [0x41]], [.bytes [], .bytes [0x42]]] := by
  decide +kernel

/-- **C105** (partial): a command, prepared or not, that succeeds on a target with 64 bits succeeds with 32 bits, with the
same outcome, and leaves the same connection, with the same bytes sent; so does a query, unless its result has more
columns than there is memory for (41297762; MySQL allows 4096).  Therefore a program whose calls all succeed does the
same on both, as long as it does not look at messages that are not there.  The converse is false, see
`C105_columns_violated`. -/
theorem C105_calls_partial (sql : Str) (p : Prepared) (vs : List Value) :
    Narrow.Follows OkAlike (executeQuery sql) (Narrow.executeQuery sql) ∧
    Narrow.Follows Eq (prepareStatement sql) (Narrow.prepareStatement sql) ∧
    Narrow.Follows OkAlike (p.execute vs) (Narrow.stmtExecute p vs) ∧
    (∀ c rs c', Tame c → rs.columns.length ≤ 41297762 → query sql c = (.ok rs, c') →
      Tame c' ∧ ∃ rs', Narrow.query sql c = (.ok rs', c') ∧ SetAlike rs rs') ∧
    (∀ c rs c', Tame c → rs.columns.length ≤ 41297762 → p.query vs c = (.ok rs, c') →
      Tame c' ∧ ∃ rs', Narrow.stmtQuery p vs c = (.ok rs', c') ∧ SetAlike rs rs') := by
  refine ⟨(Narrow.executeQuery_alike sql).follows, (Narrow.prepare_alike sql).follows,
    (Narrow.stmtExecute_alike p vs).follows, fun c rs c' hc hl e => ?_, fun c rs c' hc hl e => ?_⟩
  · refine ((Narrow.query_alike sql) c rs c' hc e).resolve_left fun h => ?_
    unfold Narrow.Many Narrow.columnLimit at h
    omega
  · refine ((Narrow.stmtQuery_alike p vs) c rs c' hc e).resolve_left fun h => ?_
    unfold Narrow.Many Narrow.columnLimit at h
    omega

/-- the outcome of a query: the columns, or the error. -/
def Narrow.columnsOf : Out Error RSet × Conn → Option (List Str)
  | (.ok rs, _) => some (rs.columns.map Column.name)
  | _ => none

/-- the definitions end before their number is reached. -/
theorem narrow_query_missing {sql : Str} {c c1 c2 c3 c4 : Conn} {b : UInt8} {t q : Bytes} {n k : Nat} {d : ColumnDef} {e : Error}
    (h1 : executeCommand .query (utf8 sql) c = (.ok (), c1)) (h2 : readPacket c1 = (.ok (b :: t), c2))
    (hb : b ≠ 0x00 ∧ b ≠ 0xFB ∧ b ≠ 0xFF) (hn : runP P.checkedEatLenencInt (b :: t) = .ok (UInt64.ofNat n))
    (hk : (UInt64.ofNat n).toNat = k + 2) (hl : k + 2 ≤ columnLimit)
    (h3 : readPacket { c2 with pendingResult := true } = (.ok q, c3)) (hd : runP ColumnDef.deserialize q = .ok d)
    (h4 : readPacket c3 = (.err e, c4)) : query sql c = (.err e, c4) := by
  unfold query RSet.read
  rw [SM.bind_of_ok h1, SM.bind_of_ok h2, SM.bind_of_ok (show (SM.get : M Conn) c2 = (.ok c2, c2) from rfl)]
  dsimp only
  rw [if_neg hb.1, if_neg hb.2.1, if_neg hb.2.2,
    SM.bind_of_ok (show (SM.modify (fun c => { c with pendingResult := true }) : M Unit) c2 = (.ok (), _) from rfl), hn,
    SM.bind_of_ok (show (liftP (.ok (UInt64.ofNat n)) : M UInt64) { c2 with pendingResult := true } = (.ok _, _) from rfl), hk]
  unfold readColumns
  rw [if_neg (by omega)]
  refine SM.bind_of_err ?_
  unfold readColumnDefs
  rw [SM.bind_of_ok h3, hd, SM.bind_of_ok (show (liftP (.ok d) : M ColumnDef) c3 = (.ok d, c3) from rfl)]
  refine SM.bind_of_err ?_
  unfold readColumnDefs
  exact SM.bind_of_err h4

/-- **C105** is false of malformed answers: the server announces 2^32 + 1 columns and sends one.  With 64 bits the query
fails, when no more definitions arrive; with 32 bits it gives a result set with one column. -/
theorem C105_columns_violated :
    Narrow.columnsOf (Narrow.query "q".toList
      (exConn (Spec.framesAll 1 [[0xFE, 1, 0, 0, 0, 1, 0, 0, 0], C76ex.coldef]))) = some ["n".toList] ∧
    (query "q".toList (exConn (Spec.framesAll 1 [[0xFE, 1, 0, 0, 0, 1, 0, 0, 0], C76ex.coldef]))).1 =
      .err (.protocol (.io .unexpectedEof)) := by
  refine ⟨by decide +kernel, ?_⟩
  rw [narrow_query_missing (c1 := { exConn (Spec.framesAll 1 [[0xFE, 1, 0, 0, 0, 1, 0, 0, 0], C76ex.coldef]) with
        tx := [2, 0, 0, 0, 3, 0x71], seqId := 1 })
      (c2 := { exConn [] with rx := rxOf (Spec.framesAll 2 [C76ex.coldef]), tx := [2, 0, 0, 0, 3, 0x71], seqId := 2 })
      (c3 := { exConn [] with tx := [2, 0, 0, 0, 3, 0x71], seqId := 3, pendingResult := true })
      (c4 := { exConn [] with tx := [2, 0, 0, 0, 3, 0x71], seqId := 3, pendingResult := true })
      (b := 0xFE) (t := [1, 0, 0, 0, 1, 0, 0, 0]) (q := C76ex.coldef) (n := 2 ^ 32 + 1) (k := 2 ^ 32 - 1)
      (e := .protocol (.io .unexpectedEof)) (by decide +kernel) (by decide +kernel) (by decide) (by decide +kernel)
      (by decide +kernel) (by decide +kernel) (by decide +kernel) rfl (by decide +kernel)]

/-- **C105**: on a stream in which nothing looks like a length of 2^32 or more (the bytes of data may look like one), nothing
differs at all: every call has the same outcome, success, error or panic, sends the same bytes and leaves the same. -/
theorem C105_same (c : Conn) (hc : UsualStream c) (sql : Str) (p : Prepared) (vs : List Value) :
    Narrow.executeQuery sql c = executeQuery sql c ∧
    Narrow.query sql c = query sql c ∧
    Narrow.prepareStatement sql c = prepareStatement sql c ∧
    Narrow.stmtExecute p vs c = p.execute vs c ∧
    Narrow.stmtQuery p vs c = p.query vs c ∧
    ∀ {R : Type} (fp : FloatParse) (mk : List Column → List Value → Out ParseError R) (rs : RSet),
      Narrow.next (Narrow.textReader fp mk) rs c = rs.next (textReader fp mk) c ∧
      Narrow.collect (Narrow.textReader fp mk) rs c = rs.collect (textReader fp mk) c ∧
      Narrow.one (Narrow.textReader fp mk) rs c = rs.one (textReader fp mk) c ∧
      Narrow.finish (Narrow.textReader fp mk) rs c = rs.finish (textReader fp mk) c ∧
      Narrow.next (Narrow.binReader mk) rs c = rs.next (binReader mk) c ∧
      Narrow.collect (Narrow.binReader mk) rs c = rs.collect (binReader mk) c ∧
      Narrow.one (Narrow.binReader mk) rs c = rs.one (binReader mk) c ∧
      Narrow.finish (Narrow.binReader mk) rs c = rs.finish (binReader mk) c := by
  refine ⟨Narrow.executeQuery_exact sql c hc, Narrow.query_exact sql c hc, Narrow.prepare_exact sql c hc,
    Narrow.stmtExecute_exact p vs c hc, Narrow.stmtQuery_exact p vs c hc, fun fp mk rs => ?_⟩
  have ht := Narrow.textReader_same fp mk
  have hb := Narrow.binReader_same mk
  exact ⟨Narrow.next_exact ht rs c hc, Narrow.collect_exact ht rs c hc, Narrow.one_exact ht rs c hc,
    Narrow.finish_exact ht rs c hc, Narrow.next_exact hb rs c hc, Narrow.collect_exact hb rs c hc,
    Narrow.one_exact hb rs c hc, Narrow.finish_exact hb rs c hc⟩

theorem mem_frames (seq b : UInt8) (p : Bytes) (h : b ∈ p) : b ∈ Spec.frames seq p := by
  induction p using (measure List.length).wf.induction generalizing seq with
  | _ p ih =>
    rw [Spec.frames]
    split
    · exact List.mem_append_right _ h
    · rename_i hl
      rw [← List.take_append_drop Spec.maxFrame p, List.mem_append] at h
      rcases h with h | h
      · exact List.mem_append_left _ (List.mem_append_right _ h)
      · refine List.mem_append_right _ (ih _ ?_ _ h)
        show (p.drop Spec.maxFrame).length < p.length
        rw [List.length_drop]
        unfold Spec.maxFrame at *
        omega

/-- **C105**: streams without the byte 0xFE, which begins lengths of eight bytes, are of this kind, however long. -/
theorem C105_same_streams (c : Conn) (h : Rx.byte 0xFE ∉ c.rx) : UsualStream c := by
  intro c1 p c2 hs ht
  obtain ⟨rest, e, _⟩ := ht
  have hp : ∀ b ∈ p, b ≠ 0xFE := by
    rintro b hb rfl
    refine h (hs.subset ?_)
    rw [e]
    refine List.mem_append_left _ (List.mem_map_of_mem ?_)
    unfold Spec.framesAll
    exact List.mem_append_left _ (mem_frames _ _ _ hb)
  constructor
  · rintro a s rfl ⟨n, r, _, _, rfl⟩
    exact hp 0xFE (by simp) rfl
  · rintro n a s rfl hf
    rcases hf with ⟨h, _⟩ | ⟨h, _⟩ | ⟨h, _⟩ | ⟨_, rfl⟩ | ⟨h, _⟩
    · omega
    · omega
    · omega
    · exact absurd rfl (hp 0xFE (by simp))
    · omega

/-- a command, answered with a count of rows and with an error, and a parameter too many. -/
example :
    (Narrow.executeQuery "q".toList (exConn (Spec.framesAll 1 [[0, 3, 0, 2, 0, 0, 0]]))).1.map' OkPacket.affectedRows = .ok 3 ∧
    Narrow.executeQuery "q".toList (exConn (Spec.framesAll 1 [[0, 3, 0, 2]])) =
      executeQuery "q".toList (exConn (Spec.framesAll 1 [[0, 3, 0, 2]])) ∧
    (Narrow.executeQuery "q".toList (exConn (Spec.framesAll 1 [[0, 3, 0, 2]]))).1 = .err (.protocol .eof) ∧
    (Narrow.stmtExecute { id := 1, params := 0 } [.null] (exConn [])).1 = .err (.runtime .parameterCountMismatch) :=
  ⟨by decide +kernel, (C105_same _ (C105_same_streams _ (by decide +kernel)) _ { id := 1, params := 0 } []).1,
    by decide +kernel, by decide +kernel⟩

/-- **C105** (partial): with 32 bits no text is taken for another public key than with 64 bits, or for one at all if it was
refused; and a key encoded as the standards say, in fewer than 2^32 bytes, is read on both.  Other encodings may be
refused, see `C105_key_violated`. -/
theorem C105_key_partial (m e : Nat) (t : Bytes) :
    (Narrow.tryFromPem t = tryFromPem t ∨ Narrow.tryFromPem t = .err .invalidPem) ∧
    ((Spec.pkcs1 m e).length < 2 ^ 32 → Spec.SameText t (Spec.pemPkcs1 m e) →
      Narrow.tryFromPem t = tryFromPem t ∧ Narrow.tryFromPem t = .ok { modulus := m, exponent := e }) ∧
    ((Spec.spki m e).length < 2 ^ 32 → Spec.SameText t (Spec.pemSpki m e) →
      Narrow.tryFromPem t = tryFromPem t ∧ Narrow.tryFromPem t = .ok { modulus := m, exponent := e }) := by
  refine ⟨Narrow.pem_refuses t, fun hl h => ?_, fun hl h => ?_⟩
  · rw [Narrow.pem_pkcs1 m e t hl h, C35_pkcs1 m e t (by omega) h]
    exact ⟨rfl, rfl⟩
  · rw [Narrow.pem_pkcs8 m e t hl h, C35_pkcs8 m e t (by omega) h]
    exact ⟨rfl, rfl⟩

example : Narrow.tryFromPem (Spec.text "-----BEGIN RSA PUBLIC KEY-----\nMAcCA\r\ngyhAg\tER\n-----END RSA PUBLIC KEY-----\n")
    = .ok { modulus := 3233, exponent := 17 } := by
  decide +kernel

/-- **C105** is false of keys in which a length has leading zeros: one of five bytes is a length with 64 bits, and none with
32.  The key is 3233, 17, as in the example before. -/
theorem C105_key_violated :
    tryFromPkcs1 [0x30, 0x85, 0, 0, 0, 0, 7, 2, 2, 0x0C, 0xA1, 2, 1, 0x11] = .ok { modulus := 3233, exponent := 17 } ∧
    Narrow.tryFromPkcs1 [0x30, 0x85, 0, 0, 0, 0, 7, 2, 2, 0x0C, 0xA1, 2, 1, 0x11] = .err .invalidPem := by
  decide +kernel

/-- **C105**: the mask of the padding is the same, although it is checked for its length with 64 bits only: no length
reaches the bound with 32. -/
theorem C105_mask (h : Hashes) (seed : Bytes) (len : Nat) (hl : len < 2 ^ 32) :
    Narrow.mgf1 h seed len = mgf1 h seed len := by
  unfold Narrow.mgf1 mgf1
  rw [if_neg (show ¬ len > HASH_LEN * 2 ^ 32 by unfold HASH_LEN; omega)]

/-- **C105** (partial): the size of a key is the same, in either build, if the key has fewer than 2^32 - 6 bits.  Beyond, it
is not, see `C105_size_violated`. -/
theorem C105_size_partial (checked : Bool) (k : PublicKey) (h : Spec.bitLength k.modulus < 2 ^ 32 - 6) :
    Narrow.numOctets checked k = .ok k.numOctets := by
  have hb : natBits k.modulus < 2 ^ 32 - 6 := h
  unfold Narrow.numOctets PublicKey.numOctets
  dsimp only
  rw [Nat.mod_eq_of_lt (by omega), if_pos (by omega)]

example : Narrow.numOctets true { modulus := 2 ^ 2047 + 1, exponent := 65537 } = .ok 256 := by decide +kernel

/-- **C105** is false of keys with 2^32 bits (half a gigabyte): their size is taken for 0. -/
theorem C105_size_violated (checked : Bool) :
    ∃ k : PublicKey, Spec.bitLength k.modulus = 2 ^ 32 ∧ k.numOctets = 2 ^ 29 ∧ Narrow.numOctets checked k = .ok 0 := by
  have hb : ∀ n, natBits (2 ^ n) = n + 1 := by
    intro n
    unfold natBits
    rw [if_neg (Nat.pos_iff_ne_zero.1 (Nat.two_pow_pos n)), Nat.log2_two_pow]
  have key : ∀ k : PublicKey, natBits k.modulus = 2 ^ 32 →
      Spec.bitLength k.modulus = 2 ^ 32 ∧ k.numOctets = 2 ^ 29 ∧ Narrow.numOctets checked k = .ok 0 := by
    intro k h
    refine ⟨h, ?_, ?_⟩
    · unfold PublicKey.numOctets
      rw [h]
      decide
    · unfold Narrow.numOctets
      rw [h]
      cases checked <;> decide
  generalize hn : (2 ^ 32 - 1 : Nat) = n at *
  exact ⟨{ modulus := 2 ^ n, exponent := 3 }, key _ (by rw [hb]; omega)⟩

/-- **C105**: the limit of the server for the size of packets is the same with 32 bits, if it is below 2^32; MySQL allows
2^30 at most.  From there on the upper half is lost, and 2^32 becomes 0. -/
theorem C105_limit (cols : List Column) (row : List Value) :
    (∀ n, limitOf cols row = .ok (some n) → Narrow.limitOf cols row = .ok (some (n % 2 ^ 32))) ∧
    (∀ n, n < 2 ^ 32 → limitOf cols row = .ok (some n) → Narrow.limitOf cols row = limitOf cols row) ∧
    ((¬ ∃ n, limitOf cols row = .ok (some n)) → Narrow.limitOf cols row = limitOf cols row) := by
  have key : ∀ n, limitOf cols row = .ok (some n) → Narrow.limitOf cols row = .ok (some (n % 2 ^ 32)) := by
    intro n h
    unfold limitOf at h
    unfold Narrow.limitOf
    dsimp only at h ⊢
    split at h
    · rename_i hi
      rw [if_pos hi]
      split at h
      · rename_i x hx
        cases h
        rw [hx]
        rfl
      · cases h
      · cases h
    · cases h
  refine ⟨key, fun n hn h => by rw [key n h, h, Nat.mod_eq_of_lt hn], fun h => ?_⟩
  unfold limitOf at h ⊢
  unfold Narrow.limitOf
  dsimp only at h ⊢
  split
  · rename_i hi
    rw [if_pos hi] at h
    split
    · rename_i x hx
      rw [hx] at h
      exact absurd ⟨_, rfl⟩ h
    · rename_i v hv hx
      rw [hx]
      cases v with
      | ulong n => exact absurd rfl (hv n)
      | _ => rfl
    · rename_i hx
      rw [hx]
  · rfl

example : Narrow.limitOf [{ C105ex.col .longLong with name := "@@max_allowed_packet".toList }] [.ulong 67108864] =
      .ok (some 67108864) ∧
    Narrow.limitOf [{ C105ex.col .longLong with name := "@@max_allowed_packet".toList }] [.ulong 4294967296] =
      .ok (some 0) := by decide +kernel

end Verif

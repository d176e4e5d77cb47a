import Verif.Model.Fill
import Verif.Spec.Fill
import Verif.Proofs.SqlServer
import Verif.Proofs.MigOpen
import Verif.Props.C14_ServerErrors
import Verif.Props.C15_OkPackets

/-! # Lemmas: a program with several connections, against one server -/

namespace Verif

open Spec (FillServer FillState FillDb FillStmt SqlError)
open Spec.FillServer (talk react)

/-- what is assumed of the server: numbers that fit, messages and errors that can be sent, all rows. -/
structure FairFill (S : FillServer) : Prop where
  message : (utf8 S.message).length < 2 ^ 64
  column : ∀ db e, S.refusesColumn db = some e → (utf8 e.state).length = 5 ∧ e.code ≠ 0xFFFF
  update : ∀ db u a e, S.refuses db u a = some e → (utf8 e.state).length = 5 ∧ e.code ≠ 0xFFFF
  drop : ∀ db e, S.refusesDrop db = some e → (utf8 e.state).length = 5 ∧ e.code ≠ 0xFFFF
  order : ∀ us, (S.order us).Perm us
  found : ∀ ids, (S.found ids).Perm ids
  user : DescOk S.userDesc .long ∧ (columnOf S.userDesc .long).wireType = (3, true)
  address : DescOk S.addressDesc .long ∧ (columnOf S.addressDesc .long).wireType = (3, true)

/-- the connection is between two commands, and these bytes arrive next. -/
structure FillRest (S : FillServer) (c : Conn) (rx : List Rx) : Prop where
  pending : c.pendingResult = false
  faults : c.wfaults = []
  track : hasFlag32 c.data.capabilities Cap.SESSION_TRACK = false
  p41 : hasFlag32 c.data.capabilities Cap.PROTOCOL_41 = S.protocol41
  rx : c.rx = rx

/-- the error the caller gets. -/
def fillRefusal (S : FillServer) (e : SqlError) : Error :=
  .server (.error e.code (if S.protocol41 then some (utf8 e.state) else none) e.msg)

def fillOutcome (S : FillServer) : Option SqlError → Out Error Unit
  | none => .ok ()
  | some e => .err (fillRefusal S e)

/-- commands as they are written. -/
def fillLog (cmds : List (Nat × Bytes)) : List (Nat × Bytes) := cmds.map fun x => (x.1, Spec.frames 0 x.2)

/-- a connection put in place of another. -/
def Conns.put (s : Conns) (i : Nat) (c : Conn) (l : List (Nat × Bytes)) : Conns :=
  { conn := fun j => if j = i then c else s.conn j, log := s.log ++ l }

theorem frames_ne_nil (q : UInt8) (m : Bytes) : Spec.frames q m ≠ [] := by
  intro h
  have := length_frames q m
  rw [h] at this
  have : 0 < Spec.frameCount m := Nat.succ_pos _
  simp at *
  omega

/-- a call that writes one command. -/
theorem on_cmd {α : Type} {i : Nat} {x : M α} {s : Conns} {o : Out Error α} {c : Conn} {m : Bytes}
    (h : x (s.conn i) = (o, c)) (ht : c.tx = (s.conn i).tx ++ Spec.frames 0 m) :
    on i x s = (o, s.put i c (fillLog [(i, m)])) := by
  unfold on Conns.put fillLog
  rw [h]
  dsimp only
  rw [ht, List.drop_left, if_neg (frames_ne_nil _ _)]
  rfl

/-- a call that writes nothing. -/
theorem on_read {α : Type} {i : Nat} {x : M α} {s : Conns} {o : Out Error α} {c : Conn}
    (h : x (s.conn i) = (o, c)) (ht : c.tx = (s.conn i).tx) :
    on i x s = (o, s.put i c []) := by
  unfold on Conns.put
  rw [h]
  dsimp only
  rw [ht, List.drop_length, if_pos rfl, List.append_nil]

theorem Conns.put_same (s : Conns) (i : Nat) (c : Conn) (l) : (s.put i c l).conn i = c := if_pos rfl
theorem Conns.put_other (s : Conns) {i j : Nat} (c : Conn) (l) (h : j ≠ i) : (s.put i c l).conn j = s.conn j :=
  if_neg h

theorem fillLog_append (a b : List (Nat × Bytes)) : fillLog (a ++ b) = fillLog a ++ fillLog b := List.map_append

theorem ftalk_append (S : FillServer) (st : FillState) (a b : List (Nat × Bytes)) :
    S.talk st (a ++ b) = (S.talk st a).bind fun x => (S.talk x.1 b).map fun y =>
      (y.1, fun j => x.2 j ++ y.2 j) := by
  induction a generalizing st with
  | nil =>
    rw [List.nil_append, talk]
    simp only [Option.bind_some, List.nil_append]
    cases S.talk st b <;> rfl
  | cons m a ih =>
    obtain ⟨i, m⟩ := m
    rw [List.cons_append, talk, talk]
    cases S.react i st m with
    | none => rfl
    | some x =>
      simp only [Option.bind_eq_bind, Option.bind_some, ih]
      cases S.talk x.1 a with
      | none => rfl
      | some y =>
        simp only [Option.bind_some]
        cases S.talk y.1 b with
        | none => rfl
        | some z =>
          simp only [Option.map_some, Option.bind_some]
          congr 2
          funext j
          split <;> simp

theorem ftalk_one (S : FillServer) (st st' : FillState) (i : Nat) (m : Bytes) (ps : List Bytes)
    (h : S.react i st m = some (st', ps)) :
    S.talk st [(i, m)] = some (st', fun j =>
      if j = i then Spec.framesAll (UInt8.ofNat (Spec.frameCount m)) ps else []) := by
  rw [talk, h]
  simp [talk]

/-! ### statements -/

attribute [local irreducible] fillAlterSql fillUsersSql fillAddressesSql fillUpdateSql fillDownSql

theorem reads_alter : Spec.tokens fillAlterSql = some Spec.FillServer.alterToks := by
  unfold fillAlterSql; decide +kernel
theorem reads_down : Spec.tokens fillDownSql = some Spec.FillServer.dropToks := by
  unfold fillDownSql; decide +kernel
theorem reads_users : Spec.tokens fillUsersSql = some Spec.FillServer.usersToks := by
  unfold fillUsersSql; decide +kernel
theorem reads_addresses : Spec.tokens fillAddressesSql = some Spec.FillServer.addressesToks := by
  unfold fillAddressesSql; decide +kernel
theorem reads_fillUpdate : Spec.tokens fillUpdateSql = some Spec.FillServer.updateToks := by
  unfold fillUpdateSql; decide +kernel

/-! ### rows -/

theorem meaning_uint {v : Value} {x : UInt32} (h : Spec.meaning v = .int 4 true x.toNat) : v = .uint x := by
  cases v <;> simp [Spec.meaning, Spec.mkTime] at h
  · rename_i y
    have : y = x := UInt32.toNat_inj.mp (by omega)
    rw [this]

theorem textForm_u32 (fp : FloatParse) (x : UInt32) :
    Spec.TextForm fp 3 true (.int 4 true x.toNat) (Spec.dec x.toNat) := by
  have := x.toNat_lt
  refine ⟨rfl, rfl, ?_, 0, ?_⟩
  · unfold Spec.inRange
    rw [if_pos rfl]
    omega
  · unfold Spec.textInt
    rw [if_neg (by omega)]
    simp

/-- a single value. -/
theorem singleton_of {vs : List Value} {x : UInt32} (h : vs.map Spec.meaning = [.int 4 true x.toNat]) :
    vs = [.uint x] := by
  match vs with
  | [a] =>
    simp only [List.map_cons, List.map_nil, List.cons.injEq, and_true] at h
    rw [meaning_uint h]
  | [] => simp at h
  | _ :: _ :: _ => simp at h

theorem singletons_of {vs : List (List Value)} {xs : List UInt32}
    (h : vs.map (List.map Spec.meaning) = xs.map fun x => [.int 4 true x.toNat]) :
    vs = xs.map fun x => [.uint x] := by
  induction xs generalizing vs with
  | nil => simpa using h
  | cons x xs ih =>
    match vs with
    | [] => simp at h
    | v :: vs =>
      rw [List.map_cons, List.map_cons, List.cons.injEq] at h
      rw [List.map_cons, singleton_of h.1, ih h.2]

theorem rows_users {S : FillServer} (hS : FairFill S) (fp : FloatParse) (us : List UInt32) :
    RowsAs (textReader fp mkPlain) [columnOf S.userDesc .long] (us.map Spec.FillServer.textRow)
      (us.map fun u => [.uint u]) := by
  have ht : TextRows fp [columnOf S.userDesc .long] (us.map fun u => [.int 4 true u.toNat])
      (us.map Spec.FillServer.textRow) := by
    unfold TextRows
    induction us with
    | nil => exact .nil
    | cons u us ih =>
      refine .cons ?_ ih
      have := u.toNat_lt
      rw [List.map_cons, List.map_nil, hS.user.2]
      unfold Spec.FillServer.textRow
      rw [← List.append_nil (Spec.lenencStr _)]
      refine .cell (textForm_u32 fp u) ?_ .nil
      have := length_dec_le 10 u.toNat (by omega) (by omega)
      omega
  obtain ⟨xs, h1, h2⟩ := rowsAs_text ht (by simp)
  rw [singletons_of h2] at h1
  exact h1

theorem rows_addresses {S : FillServer} (hS : FairFill S) (ids : List UInt32) :
    RowsAs (binReader mkPlain) [columnOf S.addressDesc .long] (ids.map Spec.FillServer.binRow)
      (ids.map fun u => [.uint u]) := by
  have ht : BinRows [columnOf S.addressDesc .long] (ids.map fun u => [.int 4 true u.toNat])
      (ids.map Spec.FillServer.binRow) := by
    unfold BinRows
    induction ids with
    | nil => exact .nil
    | cons u ids ih =>
      refine .cons ?_ ih
      have := u.toNat_lt
      rw [List.map_cons, List.map_nil, hS.address.2]
      unfold Spec.FillServer.binRow Spec.readRow
      have h4 := spec_readInt_le (k := 4) (n := u.toNat) [] (by omega)
      rw [List.append_nil] at h4
      have h1 : Spec.readInt 1 (([0x00] ++ [0x00] ++ Spec.le 4 u.toNat : Bytes)) =
          some (0, 0x00 :: Spec.le 4 u.toNat) := by
        simp [Spec.readInt, Spec.readN, Spec.unle]
      have h2 : Spec.readN (([((3 : Nat), true)].length + 7 + 2) / 8) (0x00 :: Spec.le 4 u.toNat) =
          some ([0x00], Spec.le 4 u.toNat) := by
        simp [Spec.readN]
      rw [h1]
      simp only [Option.bind_eq_bind, Option.bind_some]
      rw [if_neg (by simp), h2]
      simp only [Option.bind_some, Spec.readRowValues]
      rw [if_neg (by decide)]
      unfold Spec.readBin Spec.readNum
      rw [if_neg (by decide), if_neg (by decide), if_pos (by decide), h4]
      rfl
  obtain ⟨xs, h1, h2⟩ := rowsAs_bin ht
  rw [singletons_of h2] at h1
  exact h1

/-! ### calls -/

/-- a statement executed with few numbers. -/
theorem small_exec (id : UInt32) (vs : List Value) (hl : ExecRequest.totalLen vs ≤ MAX_PAYLOAD_LEN)
    (hb : ∀ b, .bytes b ∈ vs → b.length < 2 ^ 64) :
    ∃ m, (∀ c : Conn, c.pendingResult = false → c.wfaults = [] → sendExecute id vs c = (.ok (), { c with
        tx := c.tx ++ Spec.frames 0 m, seqId := UInt8.ofNat (Spec.frameCount m) })) ∧
      Spec.readExecute vs.length (fun _ => none) m =
        some { stmtId := id.toNat, cursorType := 0, iterations := 1, params := vs.map Spec.meaning } ∧
      ∃ bs r, m = 0x17 :: bs ∧ Spec.readInt 4 bs = some (id.toNat, r) := by
  obtain ⟨bm, h1, -⟩ := ExecRequest.new_spec (ε := Error) id vs
  have hd : decide (MAX_PAYLOAD_LEN < ExecRequest.totalLen vs) = false := by
    rw [decide_eq_false_iff_not]; omega
  rw [hd] at h1
  have h2 := ExecRequest.readExecute_spec id vs _ hb h1
  have e : ExecRequest.longOf false vs = fun _ => none := by
    funext i; simp [ExecRequest.longOf]
  dsimp only at h2
  rw [e] at h2
  refine ⟨_, fun c hp hw => ?_, h2, readExecute_head h2⟩
  obtain ⟨req, h3, h4⟩ := sendExecute_clean id vs c hp hw
  rw [h1] at h3
  cases h3
  rw [h4]
  simp [execCmds, Spec.commands]

/-- an answer without rows that is an OK packet. -/
theorem fill_ok {S : FillServer} (hS : FairFill S) {sql : Str} {c : Conn} {r : List Rx} {k : Nat}
    (hc : FillRest S c (rxOf (Spec.framesAll (UInt8.ofNat (Spec.frameCount (0x03 :: utf8 sql))) [S.okAnswer k]) ++ r)) :
    ∃ x c', executeQuery sql c = (.ok x, c') ∧ c'.tx = c.tx ++ Spec.frames 0 (0x03 :: utf8 sql) ∧ FillRest S c' r := by
  have hrx := hc.rx
  simp only [Spec.framesAll, List.append_nil] at hrx
  obtain ⟨q, h⟩ := C15_execute_query (c := c) (r := r) (a := S.affected k) (l := 0) (status := S.status)
    (warnings := S.warnings) (msg := S.message) sql hc.pending hc.faults hS.message hc.track hrx
  exact ⟨_, _, h, rfl, ⟨hc.pending, hc.faults, hc.track, hc.p41, rfl⟩⟩

/-- an answer that is an ERR packet. -/
theorem fill_err {S : FillServer} {sql : Str} {c : Conn} {r : List Rx} {e : SqlError}
    (he : (utf8 e.state).length = 5 ∧ e.code ≠ 0xFFFF)
    (hc : FillRest S c (rxOf (Spec.framesAll (UInt8.ofNat (Spec.frameCount (0x03 :: utf8 sql))) [S.errAnswer e]) ++ r)) :
    ∃ c', executeQuery sql c = (.err (fillRefusal S e), c') ∧ c'.tx = c.tx ++ Spec.frames 0 (0x03 :: utf8 sql) ∧
      FillRest S c' r := by
  have hrx := hc.rx
  simp only [Spec.framesAll, List.append_nil] at hrx
  obtain ⟨q, h⟩ := C14_execute_query (c := c) (r := r) (code := e.code) (state := e.state) (msg := e.msg)
    sql hc.pending hc.faults he.1 (Or.inl he.2) (by
      unfold errAnswer; rw [hc.p41]; exact hrx)
  unfold errSeen at h
  rw [hc.p41] at h
  exact ⟨_, h, rfl, ⟨hc.pending, hc.faults, hc.track, hc.p41, rfl⟩⟩

/-- preparing. -/
theorem fill_prepare {S : FillServer} {sql : Str} {c : Conn} {r : List Rx} {id : UInt32} {cols params : UInt16}
    {defs : List Bytes} (hd : defs.length = params.toNat + cols.toNat)
    (hc : FillRest S c (rxOf (Spec.framesAll (UInt8.ofNat (Spec.frameCount (0x16 :: utf8 sql)))
      (Spec.stmtOk id.toNat cols.toNat params.toNat 0 :: defs)) ++ r)) :
    ∃ c', prepareStatement sql c = (.ok { id := id, params := params.toNat }, c') ∧
      c'.tx = c.tx ++ Spec.frames 0 (0x16 :: utf8 sql) ∧ FillRest S c' r := by
  obtain ⟨q, h⟩ := C18_prepare sql c id cols params 0 defs r hc.pending hc.faults hd hc.rx
  exact ⟨_, h, rfl, ⟨hc.pending, hc.faults, hc.track, hc.p41, rfl⟩⟩

/-- an update that the server answers. -/
theorem fill_execute_ok {S : FillServer} (hS : FairFill S) {pr : Prepared} {vs : List Value} {m : Bytes} {c : Conn}
    {r : List Rx} {k : Nat} (hl : pr.params = vs.length)
    (hm : ∀ c : Conn, c.pendingResult = false → c.wfaults = [] → sendExecute pr.id vs c = (.ok (), { c with
        tx := c.tx ++ Spec.frames 0 m, seqId := UInt8.ofNat (Spec.frameCount m) }))
    (hc : FillRest S c (rxOf (Spec.framesAll (UInt8.ofNat (Spec.frameCount m)) [S.okAnswer k]) ++ r)) :
    ∃ x c', pr.execute vs c = (.ok x, c') ∧ c'.tx = c.tx ++ Spec.frames 0 m ∧ FillRest S c' r := by
  have hrx := hc.rx
  simp only [Spec.framesAll, List.append_nil] at hrx
  unfold Prepared.execute
  rw [if_neg (by simp [hl]), SM.bind_of_ok (hm c hc.pending hc.faults)]
  obtain ⟨q, h⟩ := readResponse_ok { c with
    tx := c.tx ++ Spec.frames 0 m, seqId := UInt8.ofNat (Spec.frameCount m) } r (S.affected k) 0 S.status S.warnings
      S.message hS.message (Or.inl hc.track) hrx
  rw [SM.bind_of_ok h]
  exact ⟨_, _, rfl, rfl, ⟨hc.pending, hc.faults, hc.track, hc.p41, rfl⟩⟩

theorem fill_execute_err {S : FillServer} {pr : Prepared} {vs : List Value} {m : Bytes} {c : Conn}
    {r : List Rx} {e : SqlError} (he : (utf8 e.state).length = 5 ∧ e.code ≠ 0xFFFF) (hl : pr.params = vs.length)
    (hm : ∀ c : Conn, c.pendingResult = false → c.wfaults = [] → sendExecute pr.id vs c = (.ok (), { c with
        tx := c.tx ++ Spec.frames 0 m, seqId := UInt8.ofNat (Spec.frameCount m) }))
    (hc : FillRest S c (rxOf (Spec.framesAll (UInt8.ofNat (Spec.frameCount m)) [S.errAnswer e]) ++ r)) :
    ∃ c', pr.execute vs c = (.err (fillRefusal S e), c') ∧ c'.tx = c.tx ++ Spec.frames 0 m ∧ FillRest S c' r := by
  have hrx := hc.rx
  simp only [Spec.framesAll, List.append_nil] at hrx
  unfold Prepared.execute
  rw [if_neg (by simp [hl]), SM.bind_of_ok (hm c hc.pending hc.faults)]
  obtain ⟨q, h⟩ := readResponse_err { c with
    tx := c.tx ++ Spec.frames 0 m, seqId := UInt8.ofNat (Spec.frameCount m) } r e.code e.state e.msg he.1
      (Or.inl he.2) (by dsimp only; rw [hc.p41]; exact hrx)
  rw [SM.bind_of_ok h]
  dsimp only
  rw [hc.p41]
  exact ⟨_, rfl, rfl, ⟨hc.pending, hc.faults, hc.track, hc.p41, rfl⟩⟩

/-- reading the head of a result with one column. -/
theorem fill_head {d : Spec.ColDesc} (hd : DescOk d .long) (c : Conn) (s : UInt8) (rows : List Bytes) (a b : Nat)
    (r : List Rx) :
    RSet.read (c.feed s (Spec.resultSet [d] rows a b) r) =
      (.ok { columns := [columnOf d .long], okPacket := none },
        Conn.feed { c with pendingResult := true } (Spec.seqAfter s (headPackets [d])) (rows ++ [Spec.terminator a b]) r) := by
  have h := read_head [d] [columnOf d .long] c s (rows ++ [Spec.terminator a b]) r
    (.cons ⟨.long, hd, rfl⟩ .nil) (by simp) (by simp)
  have e : Spec.resultSet [d] rows a b = headPackets [d] ++ (rows ++ [Spec.terminator a b]) := by
    simp [Spec.resultSet, headPackets]
  rw [e, h]

end Verif

import Verif.Model.Auth
import Verif.Model.Active
import Verif.Model.MigratorWire

/-!
# The same functions as futures

In the other files a function on a connection runs from beginning to end on a tape.  Here the functions are programs
(`Code`) whose points of suspension are visible: every read or write of the stream is a future that is polled, perhaps
many times, under a `Timeout`; the program can be dropped while one of them is pending.  The texts of the functions are
those of `Model/Io`, `Model/Query`, `Model/Auth`, `Model/Active` and `Model/MigratorWire`, loops without bounds.
-/

namespace Verif

/-- the fields of a connection other than its stream. -/
structure Loc where
  seqId : UInt8
  data : ConnData
  options : Options
  pendingResult : Bool
  deriving DecidableEq, Repr

def Conn.loc (c : Conn) : Loc :=
  { seqId := c.seqId, data := c.data, options := c.options, pendingResult := c.pendingResult }

/-- a connection with these fields, on which `rx` is to arrive. -/
def Loc.conn (l : Loc) (rx : List Rx) (tx : Bytes) (wf : List (Option (Nat × IoKind))) : Conn :=
  { rx := rx, tx := tx, wfaults := wf, seqId := l.seqId, data := l.data, options := l.options,
    pendingResult := l.pendingResult }

/-- bodies of `async fn`s on a connection. -/
inductive Code : Type → Type 1 where
  /-- a value, `return Err(…)`, a panic. -/
  | out {α : Type} (x : Out Error α) : Code α
  | get : Code Loc
  | modify (f : Loc → Loc) : Code Unit
  /-- `Timeout::new(stream.read_exact(…), …).await??` -/
  | read (n : Nat) : Code Bytes
  /-- `Timeout::new(stream.write_all(…), …).await??`, also `write_u32_le`. -/
  | write (bs : Bytes) : Code Unit
  /-- `m.await?` and what follows. -/
  | bind {α β : Type} (m : Code β) (k : β → Code α) : Code α
  /-- `m.await` without `?`. -/
  | attempt {α : Type} (m : Code α) : Code (Except Error α)
  /-- `loop`: again from a new state, or the end. -/
  | loop {σ α : Type} (body : σ → Code (σ ⊕ α)) (s : σ) : Code α

instance : Monad Code where
  pure a := .out (.ok a)
  bind := .bind

/-! ### Polling -/

/-- what one poll of the stream returns. -/
inductive Ans where
  /-- `Pending`. -/
  | notReady
  /-- these bytes were put into the buffer. -/
  | bytes (bs : Bytes)
  /-- so many bytes were accepted. -/
  | wrote (k : Nat)
  /-- end of the stream, or nothing accepted: `Ok(0)`. -/
  | zero
  | fail (k : IoKind)
  deriving DecidableEq, Repr

/-- a poll of the operation in progress, a time after the last one. -/
structure Poll where
  after : Nat
  ans : Ans
  deriving DecidableEq, Repr

/-- an operation after some polls: finished, with the polls that are left, or still pending. -/
inductive Polled (β : Type) where
  | done (r : Out IoKind β) (rest : List Poll)
  | waiting

/-- tokio's `ReadExact` under `Timeout` (timeout.rs 30-41: the operation is polled first, then the delay, which is ready
once `T` has passed): `n` bytes are missing, `e` has passed.  Returns what the stream delivered as a tape, and the time
it took. -/
def pollRead (T : Nat) : List Poll → Nat → Nat → Polled Bytes × List Rx × Nat
  | [], n, e => if n = 0 then (.done (.ok []) [], [], e) else (.waiting, [], e)
  | p :: es, n, e =>
    if n = 0 then (.done (.ok []) (p :: es), [], e)
    else
      match p.ans with
      | .bytes bs =>
        if bs = [] then (.done (.err .unexpectedEof) es, [.fault .unexpectedEof], e + p.after)
        else
          match pollRead T es (n - (bs.take n).length) (e + p.after) with
          | (.done (.ok r) rest, tape, t) => (.done (.ok (bs.take n ++ r)) rest, (bs.take n).map .byte ++ tape, t)
          | (x, tape, t) => (x, (bs.take n).map .byte ++ tape, t)
      | .zero => (.done (.err .unexpectedEof) es, [.fault .unexpectedEof], e + p.after)
      | .fail k => (.done (.err k) es, [.fault k], e + p.after)
      | .notReady | .wrote _ =>
        if T ≤ e + p.after then (.done (.err .timedOut) es, [.fault .timedOut], e + p.after)
        else pollRead T es n (e + p.after)

/-- tokio's `WriteAll` and `WriteU32Le` under `Timeout`: `bs` is left to be written.  Returns what has been accepted and
the time it took.  `Ok(0)` makes them fail with `WriteZero`. -/
def pollWrite (T : Nat) : List Poll → Bytes → Nat → Polled Unit × Bytes × Nat
  | [], bs, e => if bs = [] then (.done (.ok ()) [], [], e) else (.waiting, [], e)
  | p :: es, bs, e =>
    if bs = [] then (.done (.ok ()) (p :: es), [], e)
    else
      match p.ans with
      | .wrote k =>
        if k = 0 then (.done (.err .closed) es, [], e + p.after)
        else
          match pollWrite T es (bs.drop k) (e + p.after) with
          | (x, w, t) => (x, bs.take k ++ w, t)
      | .zero => (.done (.err .closed) es, [], e + p.after)
      | .fail k => (.done (.err k) es, [], e + p.after)
      | .notReady | .bytes _ =>
        if T ≤ e + p.after then (.done (.err .timedOut) es, [], e + p.after)
        else pollWrite T es bs (e + p.after)

/-- what a program has done to the stream: what was delivered, what was accepted, how each write ended; the time that
passed and the number of operations. -/
structure Did where
  rx : List Rx
  tx : Bytes
  wf : List (Option (Nat × IoKind))
  time : Nat
  ops : Nat
  deriving DecidableEq, Repr

def Did.none : Did := ⟨[], [], [], 0, 0⟩

def Did.and (a b : Did) : Did := ⟨a.rx ++ b.rx, a.tx ++ b.tx, a.wf ++ b.wf, a.time + b.time, a.ops + b.ops⟩

/-- where a program is suspended: in a read, or in a write of which so many bytes have been accepted. -/
inductive Spot where
  | reading
  | writing (n : Nat)
  deriving DecidableEq, Repr

/-- a program after some polls: finished, with the polls that are left, or suspended; and the fields of the connection. -/
inductive Ran (α : Type) where
  | done (o : Out Error α) (l : Loc) (rest : List Poll)
  | waiting (w : Spot) (l : Loc)

/-- the error of a stream as an error of the library. -/
def ioOut {α : Type} (r : Out IoKind α) : Out Error α := r.mapErr fun k => .protocol (.io k)

/-- how a write is recorded: all, or as far as it got. -/
def writeEnd (w : Bytes) : Out IoKind Unit → Option (Nat × IoKind)
  | .err k => some (w.length, k)
  | _ => none

/-- what a program can do: with these fields and polls, this to the stream, and get there. -/
abbrev Act (α : Type) := Loc → List Poll → Did → Ran α → Prop

/-- `m.await?` and what follows. -/
inductive Act.Bind {α β : Type} (m : Act β) (k : β → Act α) : Act α
  | ok {l l1 : Loc} {es es1 : List Poll} {d d' : Did} {b : β} {r : Ran α} :
      m l es d (.done (.ok b) l1 es1) → k b l1 es1 d' r → Bind m k l es (d.and d') r
  | err {l l1 : Loc} {es es1 : List Poll} {d : Did} {e : Error} :
      m l es d (.done (.err e) l1 es1) → Bind m k l es d (.done (.err e) l1 es1)
  | panic {l l1 : Loc} {es es1 : List Poll} {d : Did} :
      m l es d (.done .panic l1 es1) → Bind m k l es d (.done .panic l1 es1)
  | wait {l l1 : Loc} {es : List Poll} {d : Did} {w : Spot} : m l es d (.waiting w l1) → Bind m k l es d (.waiting w l1)

/-- `m.await` without `?`. -/
inductive Act.Attempt {α : Type} (m : Act α) : Act (Except Error α)
  | ok {l l1 : Loc} {es es1 : List Poll} {d : Did} {a : α} :
      m l es d (.done (.ok a) l1 es1) → Attempt m l es d (.done (.ok (.ok a)) l1 es1)
  | err {l l1 : Loc} {es es1 : List Poll} {d : Did} {e : Error} :
      m l es d (.done (.err e) l1 es1) → Attempt m l es d (.done (.ok (.error e)) l1 es1)
  | panic {l l1 : Loc} {es es1 : List Poll} {d : Did} :
      m l es d (.done .panic l1 es1) → Attempt m l es d (.done .panic l1 es1)
  | wait {l l1 : Loc} {es : List Poll} {d : Did} {w : Spot} : m l es d (.waiting w l1) → Attempt m l es d (.waiting w l1)

/-- `loop`. -/
inductive Act.Loop {σ α : Type} (body : σ → Act (σ ⊕ α)) : σ → Act α
  | again {s s' : σ} {l l1 : Loc} {es es1 : List Poll} {d d' : Did} {r : Ran α} :
      body s l es d (.done (.ok (.inl s')) l1 es1) → Loop body s' l1 es1 d' r → Loop body s l es (d.and d') r
  | stop {s : σ} {l l1 : Loc} {es es1 : List Poll} {d : Did} {a : α} :
      body s l es d (.done (.ok (.inr a)) l1 es1) → Loop body s l es d (.done (.ok a) l1 es1)
  | err {s : σ} {l l1 : Loc} {es es1 : List Poll} {d : Did} {e : Error} :
      body s l es d (.done (.err e) l1 es1) → Loop body s l es d (.done (.err e) l1 es1)
  | panic {s : σ} {l l1 : Loc} {es es1 : List Poll} {d : Did} :
      body s l es d (.done .panic l1 es1) → Loop body s l es d (.done .panic l1 es1)
  | wait {s : σ} {l l1 : Loc} {es : List Poll} {d : Did} {w : Spot} :
      body s l es d (.waiting w l1) → Loop body s l es d (.waiting w l1)

inductive Act.Read (T n : Nat) : Act Bytes
  | done {l : Loc} {es rest : List Poll} {r : Out IoKind Bytes} {tape : List Rx} {t : Nat} :
      pollRead T es n 0 = (.done r rest, tape, t) → Read T n l es ⟨tape, [], [], t, 1⟩ (.done (ioOut r) l rest)
  | wait {l : Loc} {es : List Poll} {tape : List Rx} {t : Nat} :
      pollRead T es n 0 = (.waiting, tape, t) → Read T n l es ⟨tape, [], [], t, 1⟩ (.waiting .reading l)

inductive Act.Write (T : Nat) (bs : Bytes) : Act Unit
  | done {l : Loc} {es rest : List Poll} {r : Out IoKind Unit} {w : Bytes} {t : Nat} :
      pollWrite T es bs 0 = (.done r rest, w, t) →
      Write T bs l es ⟨[], w, [writeEnd w r], t, 1⟩ (.done (ioOut r) l rest)
  | wait {l : Loc} {es : List Poll} {w : Bytes} {t : Nat} :
      pollWrite T es bs 0 = (.waiting, w, t) → Write T bs l es ⟨[], w, [], t, 1⟩ (.waiting (.writing w.length) l)

/-- what a program does, operations being given the time `T` each. -/
def Exec (T : Nat) : {α : Type} → Code α → Act α
  | _, .out x => fun l es d r => d = .none ∧ r = .done x l es
  | _, .get => fun l es d r => d = .none ∧ r = .done (.ok l) l es
  | _, .modify f => fun l es d r => d = .none ∧ r = .done (.ok ()) (f l) es
  | _, .read n => Act.Read T n
  | _, .write bs => Act.Write T bs
  | _, .bind m k => Act.Bind (Exec T m) fun b => Exec T (k b)
  | _, .attempt m => Act.Attempt (Exec T m)
  | _, .loop body s => Act.Loop (fun s => Exec T (body s)) s

/-! ### The functions -/

namespace Async

def fail {α : Type} (e : Error) : Code α := .out (.err e)
def crash {α : Type} : Code α := .out .panic
def liftP {α : Type} (x : Out ProtocolError α) : Code α := .out (x.mapErr .protocol)
def liftParse {α : Type} (x : Out ParseError α) : Code α := .out (x.mapErr fun e => .protocol (.parse e))
def liftS {α : Type} (x : Out SerializeError α) : Code α := .out (x.mapErr fun e => .protocol (.serialize e))

/-- io.rs 46-70 `read_chunk_to_buf`. -/
def readChunk (dst : Bytes) : Code (UInt8 × Bool × Bytes) := do
  let metadata ← Code.read 4
  match metadata with
  | [l0, l1, l2, seq] =>
    let chunkLen := leNat [l0, l1, l2]
    if chunkLen = 0 then pure (seq, true, dst)
    else do
      let chunk ← Code.read chunkLen
      let dst' := dst ++ chunk
      if dst'.length % MAX_PAYLOAD_LEN = 0 then pure (seq, false, dst')
      else pure (seq, true, dst')
  | _ => crash

/-- io.rs 72-92: one turn of the `loop` of `read_packet_to_buf`. -/
def packetTurn (dst : Bytes) : Code (Bytes ⊕ Bytes) := do
  let (readSeq, last, dst') ← readChunk dst
  let c ← Code.get
  if c.seqId ≠ readSeq then fail (.protocol .outOfSync)
  else do
    Code.modify fun c => { c with seqId := c.seqId + 1 }
    if last then pure (.inr dst') else pure (.inl dst')

/-- io.rs 94-105 `read_packet`. -/
def readPacket : Code Bytes := .loop packetTurn []

/-- io.rs 110-127: the `while` loop of `write_packet`. -/
def writeChunks (bs : Bytes) : Code Unit :=
  if _h : bs = [] then pure ()
  else do
    let chunkLen := min bs.length MAX_PAYLOAD_LEN
    let c ← Code.get
    Code.write (leBytes 4 (UInt32.ofNat chunkLen ||| (UInt32.ofNat c.seqId.toNat <<< 24)).toNat)
    Code.write (bs.take chunkLen)
    Code.modify fun c => { c with seqId := c.seqId + 1 }
    writeChunks (bs.drop chunkLen)
termination_by bs.length
decreasing_by
  have : 0 < bs.length := List.length_pos_iff.mpr _h
  simp only [List.length_drop, MAX_PAYLOAD_LEN]
  omega

/-- io.rs 107-139 `write_packet`. -/
def writePacket (bs : Bytes) : Code Unit := do
  writeChunks bs
  if bs.length % MAX_PAYLOAD_LEN = 0 then do
    let c ← Code.get
    Code.write (leBytes 4 (UInt32.ofNat c.seqId.toNat <<< 24).toNat)
    Code.modify fun c => { c with seqId := c.seqId + 1 }
  else pure ()

/-- io.rs 153-171 `decode_response`. -/
def decodeResponse (packet : Bytes) : Code (Except ErrPacket OkPacket) := do
  let c ← Code.get
  match packet with
  | [] => fail (.protocol .eof)
  | b :: _ =>
    if b = 0x00 then do
      let ok ← liftP (runP (OkPacket.readOk c.data.capabilities) packet)
      pure (.ok ok)
    else if b = 0xFF then do
      let e ← liftP (runP (ErrPacket.deserialize c.data.capabilities) packet)
      pure (.error e)
    else fail (.protocol (.unexpectedPacket packet))

/-- io.rs 173-176 `read_response`. -/
def readResponse : Code (Except ErrPacket OkPacket) := do
  let packet ← readPacket
  decodeResponse packet

def okOrServerError (r : Except ErrPacket OkPacket) : Code OkPacket :=
  match r with
  | .ok ok => pure ok
  | .error e => fail (.server e)

/-- result_set.rs 151-166: one turn of the loop of `cleanup`. -/
def cleanupTurn (_ : Unit) : Code (Unit ⊕ OkPacket) := do
  let packet ← readPacket
  let c ← Code.get
  let last ← Code.out (isLast c.data.capabilities packet)
  if last then do
    Code.modify fun c => { c with pendingResult := false }
    let ok ← liftP (runP (OkPacket.readEof c.data.capabilities) packet)
    pure (.inr ok)
  else pure (.inl ())

/-- result_set.rs 149-170 `cleanup`. -/
def cleanup : Code (Option OkPacket) := do
  let c ← Code.get
  if c.pendingResult then do
    let ok ← Code.loop cleanupTurn ()
    pure (some ok)
  else pure none

/-- query.rs 28-39 `execute_command`. -/
def executeCommand (cmd : Command) (data : Bytes) : Code Unit := do
  let _ ← cleanup
  Code.modify fun c => { c with seqId := 0 }
  writePacket (cmd.toByte :: data)

/-- io.rs 147-151 `write_command`. -/
def writeCommand (bytes : Bytes) : Code Unit := do
  let _ ← cleanup
  Code.modify fun c => { c with seqId := 0 }
  writePacket bytes

/-- query.rs 43-48. -/
def readColumnDefs : Nat → Code (List Column)
  | 0 => pure []
  | n + 1 => do
    let packet ← readPacket
    let d ← liftP (runP ColumnDef.deserialize packet)
    let cs ← readColumnDefs n
    pure (Column.ofDef d :: cs)

/-- query.rs 41-49 `read_column_defs`. -/
def readColumns (count : Nat) : Code (List Column) :=
  if columnLimit < count then crash else readColumnDefs count

/-- result_set.rs 32-53 `ResultSet::read`. -/
def readSet : Code RSet := do
  let packet ← readPacket
  let c ← Code.get
  match packet with
  | b :: _ =>
    if b = 0x00 then do
      let r ← decodeResponse packet
      let ok ← okOrServerError r
      pure { columns := [], okPacket := some ok }
    else if b = 0xFB then crash
    else if b = 0xFF then do
      let e ← liftP (runP (ErrPacket.deserialize c.data.capabilities) packet)
      fail (.server e)
    else do
      Code.modify fun c => { c with pendingResult := true }
      let n ← liftP (runP P.checkedEatLenencInt packet)
      let cols ← readColumns n.toNat
      pure { columns := cols, okPacket := none }
  | [] => do
    Code.modify fun c => { c with pendingResult := true }
    let n ← liftP (runP P.checkedEatLenencInt packet)
    let cols ← readColumns n.toNat
    pure { columns := cols, okPacket := none }

/-- result_set.rs 66-89 `next`. -/
def next {R : Type} (rd : RowReader R) (rs : RSet) : Code (RSet × Option R) := do
  if rs.okPacket.isSome then pure (rs, none)
  else do
    let packet ← readPacket
    let c ← Code.get
    let last ← Code.out (isLast c.data.capabilities packet)
    if last then do
      let ok ← liftP (runP (OkPacket.readEof c.data.capabilities) packet)
      Code.modify fun c => { c with pendingResult := false }
      pure ({ rs with okPacket := some ok }, none)
    else do
      let row ← liftP (rd.row packet rs.columns)
      let r ← liftParse (rd.build rs.columns row)
      pure (rs, some r)

/-- result_set.rs 93-95: one turn of the loop of `collect`. -/
def collectTurn {R : Type} (rd : RowReader R) (x : RSet × List R) : Code ((RSet × List R) ⊕ (RSet × List R)) := do
  let (rs', r?) ← next rd x.1
  match r? with
  | none => pure (.inr (rs', x.2))
  | some r => pure (.inl (rs', x.2 ++ [r]))

/-- result_set.rs 91-97 `collect`. -/
def collect {R : Type} (rd : RowReader R) (rs : RSet) : Code (RSet × List R) := .loop (collectTurn rd) (rs, [])

/-- result_set.rs 101, 129. -/
def drain {R : Type} (rd : RowReader R) (rs : RSet) : Code RSet := do
  let (rs', _) ← collect rd rs
  pure rs'

/-- result_set.rs 99-103 `one`. -/
def one {R : Type} (rd : RowReader R) (rs : RSet) : Code (RSet × Option R) := do
  let res ← Code.attempt (next rd rs)
  match res with
  | .ok (rs', r?) => do
    let rs'' ← drain rd rs'
    pure (rs'', r?)
  | .error e => do
    let _ ← drain rd rs
    fail e

/-- result_set.rs 125-134 `finish`. -/
def finish {R : Type} (rd : RowReader R) (rs : RSet) : Code OkPacket := do
  match rs.okPacket with
  | some ok => pure ok
  | none => do
    let rs' ← drain rd rs
    match rs'.okPacket with
    | some ok => pure ok
    | none => crash

/-- query.rs 15-21 `query`. -/
def query (sql : Str) : Code RSet := do
  executeCommand .query (utf8 sql)
  readSet

/-- query.rs 23-26 `execute_query`. -/
def executeQuery (sql : Str) : Code OkPacket := do
  executeCommand .query (utf8 sql)
  let r ← readResponse
  okOrServerError r

/-- init.rs 32-34 `disconnect`. -/
def disconnect : Code Unit := executeCommand .quit []

/-- prepared_statement.rs 58-60. -/
def skipPackets : Nat → Code Unit
  | 0 => pure ()
  | n + 1 => do
    let _ ← readPacket
    skipPackets n

/-- prepared_statement.rs 45-67 `prepare_statement`. -/
def prepareStatement (sql : Str) : Code Prepared := do
  executeCommand .stmtPrepare (utf8 sql)
  let packet ← readPacket
  let c ← Code.get
  match packet with
  | b :: _ =>
    if b = 0x00 then do
      let stmt ← liftP (runP Stmt.deserialize packet)
      skipPackets (stmt.paramsLen.toNat + stmt.columnsLen.toNat)
      pure { id := stmt.id, params := stmt.paramsLen.toNat }
    else if b = 0xFF then do
      let e ← liftP (runP (ErrPacket.deserialize c.data.capabilities) packet)
      fail (.server e)
    else fail (.protocol (.unexpectedPacket packet))
  | [] => fail (.protocol (.unexpectedPacket packet))

/-- io.rs 36-39. -/
def sendPieces (id : UInt32) (i : Nat) : List Bytes → Code Unit
  | [] => pure ()
  | p :: ps => do
    writeCommand (longDataBytes id (UInt16.ofNat i) p)
    sendPieces id i ps

/-- io.rs 20-44 `send_long_data`. -/
def sendLongData (id : UInt32) : Nat → List Value → Code Unit
  | _, [] => pure ()
  | i, v :: vs => do
    sendPieces id i (longDataPieces v)
    sendLongData id (i + 1) vs

/-- prepared_statement.rs 74-80, 89-95. -/
def sendExecute (id : UInt32) (params : List Value) : Code Unit := do
  let req ← Code.out (ExecRequest.new id params)
  if req.asLongData then do
    sendLongData id 0 params
    writeCommand req.serialize
  else writeCommand req.serialize

/-- prepared_statement.rs 20-31, 69-82 `query`. -/
def stmtQuery (p : Prepared) (values : List Value) : Code RSet := do
  if values.length ≠ p.params then fail (.runtime .parameterCountMismatch)
  else do
    sendExecute p.id values
    readSet

/-- prepared_statement.rs 33-41, 84-97 `execute`. -/
def stmtExecute (p : Prepared) (values : List Value) : Code OkPacket := do
  if values.length ≠ p.params then fail (.runtime .parameterCountMismatch)
  else do
    sendExecute p.id values
    let r ← readResponse
    okOrServerError r

/-- query.rs 70-71. -/
def storeLimit : Option Nat → Code Unit
  | some n => Code.modify fun c => { c with data.maxAllowedPacket := n }
  | none => pure ()

/-- query.rs 53-67. -/
def askLimit (fp : FloatParse) : Code Unit := do
  let rs ← query "select @@max_allowed_packet".toList
  let (rs', row?) ← next (textReader fp mkPlain) rs
  match row? with
  | none => pure ()
  | some row => do
    let n ← Code.out (limitOf rs'.columns row)
    storeLimit n

/-- query.rs 51-70 `read_settings`. -/
def readSettings (fp : FloatParse) : Code Unit := do
  let c ← Code.get
  if c.options.maxAllowedPacket.isNone then askLimit fp else pure ()

/-- init.rs 36-81 `handle_handshake`. -/
def handleHandshake (alnum : Char → Bool) : Code Unit := do
  let packet ← readPacket
  match runP Handshake.deserialize packet with
  | .ok hs =>
    match parseServerVersion alnum hs.serverVersion with
    | .ok v => Code.modify fun c => { c with data := connDataOf c.options hs v }
    | _ => crash
  | _ => crash

/-- init.rs 83-103 `do_handshake_response`. -/
def doHandshakeResponse (cr : Crypto) : Code Unit := do
  let c ← Code.get
  let plugin := c.options.authPlugin.getD c.data.authPlugin
  let data ← Code.out (plugin.genData cr (utf8 c.options.password) c.data.nonce c.options)
  writePacket (handshakeResponse ((data.map AuthData.bytes).getD []) c.data.version
    (utf8 c.options.user) (c.options.dbName.map utf8) (some plugin) c.data.capabilities
    (UInt32.ofNat c.data.maxAllowedPacket))

/-- auth.rs 32-40, 133-141. -/
def authFailure {α : Type} (packet : Bytes) : Code α := do
  let c ← Code.get
  match runP (ErrPacket.deserialize c.data.capabilities) packet with
  | .ok e => fail (.server e)
  | .err _ => fail (.protocol (.unexpectedPacket packet))
  | .panic => crash

/-- auth.rs 74-104. -/
def fetchKey : Code PublicKey := do
  let c ← Code.get
  match c.data.serverKey with
  | some k => pure k
  | none => do
    writePacket [0x02]
    let packet ← readPacket
    let c ← Code.get
    match packet with
    | [] => fail (.protocol (.unexpectedPacket packet))
    | b :: r =>
      if b = 0x01 then do
        let k ← Code.out ((tryFromPem r).mapErr fun e => .protocol (.serialize (.encryption e)))
        Code.modify fun c => { c with data.serverKey := some k }
        pure k
      else if b = 0xFF then do
        let e ← liftP (runP (ErrPacket.deserialize c.data.capabilities) packet)
        fail (.server e)
      else fail (.protocol (.unexpectedPacket packet))

/-- auth.rs 67-113. -/
def sendPassword (cr : Crypto) : Code Unit := do
  let c ← Code.get
  let pass := utf8 c.options.password ++ [0]
  if c.options.secure then writePacket pass
  else do
    let key ← fetchKey
    let c ← Code.get
    let x ← Code.out (xorNonce pass c.data.nonce)
    let enc ← Code.out ((cr.rsa key x).mapErr
      fun e => .protocol (.serialize (.encryption e)))
    writePacket enc

/-- auth.rs 114-125. -/
def readVerdict : Code Unit := do
  let res ← readPacket
  let c ← Code.get
  match res with
  | [] => fail (.protocol (.unexpectedPacket res))
  | b :: _ =>
    if b = 0x00 then pure ()
    else if b = 0xFF then do
      let e ← liftP (runP (ErrPacket.deserialize c.data.capabilities) res)
      fail (.server e)
    else fail (.protocol (.unexpectedPacket res))

/-- auth.rs 66-126. -/
def fullAuth (cr : Crypto) : Code Unit := do
  sendPassword cr
  readVerdict

/-- auth.rs 145-171 `perform_auth_switch` up to the call of `continue_auth`. -/
def switchAuth (cr : Crypto) (sw : AuthSwitch) : Code Unit := do
  let c ← Code.get
  if c.data.authSwitched then crash
  else do
    Code.modify fun c =>
      { c with data := { c.data with authSwitched := true, authPlugin := sw.plugin, nonce := sw.data } }
    let c ← Code.get
    let data ← Code.out
      (c.data.authPlugin.genData cr (utf8 c.options.password) c.data.nonce c.options)
    match data with
    | some d => writePacket d.serialize
    | none => writePacket []

/-- auth.rs 11-143 `continue_auth`; a second switch is impossible (C30), so two levels suffice. -/
def continueAuth (cr : Crypto) : Nat → Code Unit
  | 0 => crash
  | fuel + 1 => do
    let c ← Code.get
    let plugin := c.options.authPlugin.getD c.data.authPlugin
    let packet ← readPacket
    let c ← Code.get
    match packet with
    | [] => authFailure packet
    | b :: r =>
      if b = 0x00 then pure ()
      else if b = 0x01 ∧ plugin = .sha2 then
        match r with
        | [] => fail (.protocol (.unexpectedPacket packet))
        | s :: _ =>
          if s = 0x03 then do
            let _ ← readPacket
            pure ()
          else if s = 0x04 then fullAuth cr
          else fail (.protocol (.unexpectedPacket packet))
      else if b = 0xFE ∧ c.data.authSwitched = false then do
        let sw ← liftP (runP AuthSwitch.deserialize packet)
        switchAuth cr sw
        continueAuth cr fuel
      else authFailure packet

/-- init.rs 18-27. -/
def login (cr : Crypto) (alnum : Char → Bool) : Code Unit := do
  handleHandshake alnum
  doHandshakeResponse cr
  continueAuth cr 2

/-- init.rs 14-30 `connect`, on a stream that has been opened (`Stream::connect`, 15, is not under a timeout). -/
def connect (cr : Crypto) (alnum : Char → Bool) (fp : FloatParse) : Code Unit := do
  login cr alnum
  readSettings fp

def plainValues : List (Str × Option (Out SerializeError Value)) → Code (List NamedValue)
  | [] => pure []
  | (_, none) :: fs => plainValues fs
  | (n, some x) :: fs => do
    let v ← liftS x
    let vs ← plainValues fs
    pure ((n, v) :: vs)

def memberValues (field : Str) : List (Str × Out SerializeError Value) → Code (List NamedValue)
  | [] => pure []
  | (n, x) :: fs => do
    let v ← liftS x
    let vs ← memberValues field fs
    pure ((field ++ '_' :: n, v) :: vs)

def structValues : List (Str × Option (List (Str × Out SerializeError Value))) → Code (List NamedValue)
  | [] => pure []
  | (_, none) :: fs => structValues fs
  | (f, some ms) :: fs => do
    let a ← memberValues f ms
    let b ← structValues fs
    pure (a ++ b)

/-- active_model/mod.rs 27-29. -/
def executeInsert (table : Str) (values : List NamedValue) : Code UInt64 := do
  let p ← prepareStatement (intoInsert values table)
  let ok ← stmtExecute p (values.map (·.2))
  pure ok.lastInsertId

mutual
/-- active_model/mod.rs 22-30 `insert`. -/
def insert : ActiveModel → Code UInt64
  | .mk t _ plain structs refs => do
    let a ← plainValues plain
    let b ← structValues structs
    let r ← refValues refs
    executeInsert t (a ++ b ++ r)

/-- active_reference.rs 14-30. -/
def refValues : ActiveRefs → Code (List NamedValue)
  | .nil => pure []
  | .set f v r => do
    let vs ← refValues r
    pure ((f, v) :: vs)
  | .insert f m r => do
    let id ← insert m
    let vs ← refValues r
    pure ((f, m.primaryValue.getD (.ulong id)) :: vs)
  | .unset _ r => refValues r
end

/-- macros/src/lib.rs 331-337 `into_values`. -/
def intoValues : ActiveModel → Code (List NamedValue)
  | .mk _ _ plain structs refs => do
    let a ← plainValues plain
    let b ← structValues structs
    let r ← refValues refs
    pure (a ++ b ++ r)

/-- update_model.rs 21-31 `update`. -/
def update (id : Value) (primary : Str) (m : ActiveModel) : Code Unit := do
  let values ← intoValues m
  if values ≠ [] then do
    let p ← prepareStatement (intoUpdate values m.table primary)
    let _ ← stmtExecute p (values.map (·.2) ++ [id])
    pure ()
  else pure ()

/-- migrator_inner.rs 45-62: one turn of the loop. -/
def loadTurn (fp : FloatParse) (ms : List MigList) (x : RSet × (Version → List Str)) :
    Code ((RSet × (Version → List Str)) ⊕ (Version → List Str)) := do
  let (rs', k?) ← next (textReader fp migrationOf) x.1
  match k? with
  | none => pure (.inr x.2)
  | some k => if isKnown ms k then pure (.inl (rs', insertApplied x.2 k)) else crash

/-- migrator_inner.rs 39-62. -/
def loadTable (fp : FloatParse) (ms : List MigList) : Code (Version → List Str) := do
  let rs ← query selectSql
  Code.loop (loadTurn fp ms) (rs, fun _ => [])

/-- migrator_inner.rs 24-37. -/
def ensureTable (fp : FloatParse) : Code Unit := do
  let rs ← query existsSql
  let (_, rows) ← collect (textReader fp mkPlain) rs
  if rows.isEmpty then do
    let _ ← executeQuery createSql
    pure ()
  else pure ()

/-- migrator_inner.rs 17-68 `new`. -/
def migratorOpen (debug : Bool) (fp : FloatParse) (ms : List MigList) : Code (Version → List Str) := do
  if debug && !ordered ms then crash
  else do
    ensureTable fp
    loadTable fp ms

end Async

end Verif

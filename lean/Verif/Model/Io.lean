import Verif.Model.Wire

/-!
# The connection and its packet layer

Mirrors `src/connection/mod.rs`, `src/connection/data.rs`, `src/connection/options.rs` and the
packet functions of `src/connection/io.rs`.
-/

namespace Verif

/-- src/utils/crypt.rs 118-122 `struct PublicKey` (big integers). -/
structure PublicKey where
  modulus : Nat
  exponent : Nat
  deriving DecidableEq, Repr

/-- What the stream delivers to successive reads: a byte, or the failure of the read in progress
(`timedOut` when the delay of `Timeout` fires first, anything else reported by the stream).
The end of the list means that the peer has closed the connection. -/
inductive Rx where
  | byte (b : UInt8)
  | fault (k : IoKind)
  deriving DecidableEq, Repr

/-- src/connection/options.rs 24-40 `ConnectionOptions` together with the stream's `SECURE`
constant (src/connection/mod.rs 88-91).  `timeout` is not a number here: a timeout is a `fault`. -/
structure Options where
  user : Str
  password : Str
  dbName : Option Str
  maxAllowedPacket : Option Nat
  allowCleartext : Bool
  authPlugin : Option AuthPlugin
  serverKey : Option PublicKey
  secure : Bool
  deriving DecidableEq, Repr

/-- src/connection/data.rs 7-20 `ConnectionData`. -/
structure ConnData where
  id : UInt32
  isMariadb : Bool
  version : UInt16 × UInt16 × UInt16
  capabilities : UInt32
  nonce : Bytes
  serverKey : Option PublicKey
  authPlugin : AuthPlugin
  authSwitched : Bool
  maxAllowedPacket : Nat
  deriving DecidableEq, Repr

/-- src/connection/mod.rs 50-56 `Connection`; the stream is split into what will arrive (`rx`), what
has been written (`tx`) and the write failures to come (`wfaults`, one entry per write call; the
empty list means that all further writes succeed; `some (k, e)` fails after `k` bytes). -/
structure Conn where
  rx : List Rx
  tx : Bytes
  wfaults : List (Option (Nat × IoKind))
  seqId : UInt8
  data : ConnData
  options : Options
  pendingResult : Bool
  deriving DecidableEq, Repr

/-- functions on `&mut Connection`. -/
abbrev M := SM Conn Error

/-- src/connection/mod.rs 17. -/
def MAX_PAYLOAD_LEN : Nat := 16777215

/-- src/connection/mod.rs 18. -/
def DEFAULT_MAX_ALLOWED_PACKET : Nat := 4 * 1024 * 1024

/-- `AsyncReadExt::read_exact` under `Timeout` on the tape: bytes read before a failure are lost. -/
def takeRx : Nat → List Rx → Out IoKind Bytes × List Rx
  | 0, r => (.ok [], r)
  | _ + 1, [] => (.err .unexpectedEof, [])
  | _ + 1, .fault k :: r => (.err k, r)
  | n + 1, .byte b :: r =>
    match takeRx n r with
    | (.ok bs, r') => (.ok (b :: bs), r')
    | (x, r') => (x, r')

/-- src/connection/io.rs 53, 63: `Timeout::new(stream.read_exact(…), …).await??`. -/
def readExact (n : Nat) : M Bytes := fun c =>
  let p := takeRx n c.rx
  (p.1.mapErr fun k => .protocol (.io k), { c with rx := p.2 })

/-- src/connection/io.rs 112-124, 130-135: one `write_u32_le`/`write_all` under `Timeout`. -/
def writeRaw (bs : Bytes) : M Unit := fun c =>
  match c.wfaults with
  | [] => (.ok (), { c with tx := c.tx ++ bs })
  | none :: f => (.ok (), { c with tx := c.tx ++ bs, wfaults := f })
  | some (k, e) :: f =>
    (.err (.protocol (.io e)), { c with tx := c.tx ++ bs.take k, wfaults := f })

/-- src/connection/io.rs 46-70 `read_chunk_to_buf`: returns (sequence id, last chunk?, new buffer). -/
def readChunk (dst : Bytes) : M (UInt8 × Bool × Bytes) := do
  let metadata ← readExact 4
  match metadata with
  | [l0, l1, l2, seq] =>
    -- `read_u32` of three bytes (C01_read_u32)
    let chunkLen := leNat [l0, l1, l2]
    if chunkLen = 0 then pure (seq, true, dst)
    else do
      let chunk ← readExact chunkLen
      let dst' := dst ++ chunk
      if dst'.length % MAX_PAYLOAD_LEN = 0 then pure (seq, false, dst')
      else pure (seq, true, dst')
  | _ => SM.crash

/-- src/connection/io.rs 72-92 `read_packet_to_buf` (the `loop`); `fuel` bounds the number of
iterations, running out of fuel is a `panic` (shown to be unreachable from `readPacket`). -/
def readPacketLoop : Nat → Bytes → M Bytes
  | 0, _ => SM.crash
  | fuel + 1, dst => do
    let (readSeq, last, dst') ← readChunk dst
    let c ← SM.get
    if c.seqId ≠ readSeq then SM.fail (.protocol .outOfSync)
    else do
      SM.modify fun c => { c with seqId := c.seqId + 1 }
      if last then pure dst' else readPacketLoop fuel dst'

/-- src/connection/io.rs 94-105 `read_packet`; the pooled buffer is empty (C42). Every iteration
consumes at least four elements of the tape, so `rx.length + 1` iterations suffice. -/
def readPacket : M Bytes := fun c => readPacketLoop (c.rx.length + 1) [] c

/-- src/connection/io.rs 110-127: the `while` loop of `write_packet`. -/
def writeChunks (bs : Bytes) : M Unit :=
  if _h : bs = [] then pure ()
  else do
    let chunkLen := min bs.length MAX_PAYLOAD_LEN
    let c ← SM.get
    -- `chunk_len as u32 | (u32::from(seq_id) << 24)`, little-endian
    writeRaw (leBytes 4 (UInt32.ofNat chunkLen ||| (UInt32.ofNat c.seqId.toNat <<< 24)).toNat)
    writeRaw (bs.take chunkLen)
    SM.modify fun c => { c with seqId := c.seqId + 1 }
    writeChunks (bs.drop chunkLen)
termination_by bs.length
decreasing_by
  have : 0 < bs.length := List.length_pos_iff.mpr _h
  simp only [List.length_drop, MAX_PAYLOAD_LEN]
  omega

/-- src/connection/io.rs 107-139 `write_packet`. -/
def writePacket (bs : Bytes) : M Unit := do
  writeChunks bs
  if bs.length % MAX_PAYLOAD_LEN = 0 then do
    let c ← SM.get
    writeRaw (leBytes 4 (UInt32.ofNat c.seqId.toNat <<< 24).toNat)
    SM.modify fun c => { c with seqId := c.seqId + 1 }
  else pure ()

end Verif

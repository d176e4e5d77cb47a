import Verif.Proofs.Io
import Verif.Proofs.Example

/-! # C04 — out-of-sync packets are rejected -/

namespace Verif

/-- Reading succeeds **only** when the bytes that arrived are the protocol's frames of the
returned payload with consecutive sequence ids starting at the expected one. -/
theorem C04_only_in_sync (p : Bytes) (c c' : Conn) (h : readPacket c = (.ok p, c')) :
    c.rx = (Spec.frames c.seqId p).map Rx.byte ++ c'.rx ∧
    c' = { c with rx := c'.rx, seqId := c.seqId + UInt8.ofNat (Spec.frameCount p) } :=
  readPacket_eq_ok h

/-- A frame that arrives completely but carries another sequence id yields the out-of-sync error
(never data), at whatever position of a multi-frame packet it occurs: `pre` are the full-size
frames already received. -/
theorem C04_wrong_seq_is_error (fuel : Nat) (pre body : Bytes) (q : UInt8) (rest : List Rx) (c : Conn)
    (hfuel : 0 < fuel) (hlen : body.length < 2 ^ 24) (hq : q ≠ c.seqId)
    (h : c.rx = (Spec.le 3 body.length ++ [q] ++ body).map Rx.byte ++ rest) :
    readPacketLoop fuel pre c = (.err (.protocol .outOfSync), { c with rx := rest }) := by
  rw [spec_le_eq] at h
  cases fuel with
  | zero => omega
  | succ fuel =>
    unfold readPacketLoop
    rw [SM.bind_of_ok (readChunk_data pre body q rest c hlen h)]
    simp only [SM.get_bind_apply]
    rw [if_pos (Ne.symm hq)]
    rfl

/-- the first frame of a packet. -/
theorem C04_wrong_first_seq (body : Bytes) (q : UInt8) (rest : List Rx) (c : Conn)
    (hlen : body.length < 2 ^ 24) (hq : q ≠ c.seqId)
    (h : c.rx = (Spec.le 3 body.length ++ [q] ++ body).map Rx.byte ++ rest) :
    readPacket c = (.err (.protocol .outOfSync), { c with rx := rest }) :=
  C04_wrong_seq_is_error _ [] body q rest c (by omega) hlen hq h

/-- Whatever arrives — truncated headers, truncated bodies, wrong sequence ids, I/O failures —
reading a packet does not panic. -/
theorem C04_no_panic (c : Conn) : (readPacket c).1 ≠ .panic := readPacket_not_panic c

/-- A connection that ends inside a packet is an error. -/
theorem C04_truncated_is_error (p t : Bytes) (c : Conn) (ht : t <+: Spec.frames c.seqId p)
    (hne : t ≠ Spec.frames c.seqId p) (h : c.rx = t.map Rx.byte) (q : Bytes) :
    (readPacket c).1 ≠ .ok q := by
  intro hok
  have h1 : readPacket c = (.ok q, (readPacket c).2) := by rw [← hok]
  obtain ⟨h2, -⟩ := readPacket_eq_ok h1
  -- the tape is a complete frame sequence of q followed by the rest
  have hbytes : ∃ r : Bytes, (readPacket c).2.rx = r.map Rx.byte := by
    refine ⟨t.drop (Spec.frames c.seqId q).length, ?_⟩
    rw [List.map_drop, ← h, h2]
    simp [rxOf]
  obtain ⟨r, hr⟩ := hbytes
  rw [h, hr] at h2
  have h3 : t = Spec.frames c.seqId q ++ r := by
    apply rxOf_inj; rw [rxOf_append]; exact h2
  obtain ⟨u, hu⟩ := ht
  -- the specification's receiver is deterministic
  have e1 := receive_frames (Spec.frameCount p + Spec.frameCount q) c.seqId p [] (by omega)
  have e2 := receive_frames (Spec.frameCount p + Spec.frameCount q) c.seqId q (r ++ u) (by omega)
  rw [← hu, h3] at e1
  simp only [List.append_assoc, List.append_nil] at e1
  rw [e2] at e1
  simp only [Option.some.injEq, Prod.mk.injEq, List.append_eq_nil_iff] at e1
  obtain ⟨rfl, -, rfl, rfl⟩ := e1
  exact hne (by rw [h3]; simp)

example (c : Conn) (h : c.seqId = 2) :
    readPacket { c with rx := [1, 0, 0, 3, 10, 7].map Rx.byte }
      = (.err (.protocol .outOfSync), { c with rx := [.byte 7] }) :=
  C04_wrong_first_seq [10] 3 [.byte 7] _ (by decide) (by simp only [h]; decide) rfl

-- the stream ends inside a packet
example : (readPacket (exConn [3, 0, 0, 1, 10, 11])).1 = .err (.protocol (.io .unexpectedEof)) ∧
    (readPacket (exConn [3, 0, 0])).1 = .err (.protocol (.io .unexpectedEof)) := by decide +kernel

end Verif

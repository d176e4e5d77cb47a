import Verif.Proofs.Io
import Verif.Proofs.Example

/-!
# C02 — what is sent is correctly framed

`Spec.frames`/`Spec.receive` (Verif/Spec/Packet.lean) restate the protocol documentation.
-/

namespace Verif

/-- Sending a payload appends exactly the protocol's frames for it (consecutive sequence ids from
the connection's counter), advances the counter by the number of frames and touches nothing else. -/
theorem C02_write_frames (p : Bytes) (c : Conn) (h : c.wfaults = []) :
    writePacket p c = (.ok (), { c with
      tx := c.tx ++ Spec.frames c.seqId p,
      seqId := c.seqId + UInt8.ofNat (Spec.frameCount p) }) :=
  writePacket_ok p c h

/-- A receiver that follows the documentation and expects the connection's sequence id recovers
exactly the payload from what was sent, whatever follows it. -/
theorem C02_receiver_recovers (p rest : Bytes) (c c' : Conn)
    (h : writePacket p c = (.ok (), c')) :
    ∃ sent, c'.tx = c.tx ++ sent ∧ ∀ fuel, Spec.frameCount p ≤ fuel →
      Spec.receive fuel c.seqId (sent ++ rest) = some (p, c'.seqId, rest) := by
  obtain ⟨t, f, s, o, h1, -, h3⟩ := writePacket_gen p c
  rw [h] at h1
  simp only [Prod.mk.injEq] at h1
  obtain ⟨rfl, rfl⟩ := h1
  rcases h3 with ⟨-, rfl, rfl⟩ | ⟨e, he⟩
  · exact ⟨_, rfl, fun fuel hf => receive_frames fuel c.seqId p rest hf⟩
  · cases he

/-- Number of bytes: the payload plus four per frame, `⌊len / (2^24-1)⌋ + 1` frames. -/
theorem C02_wire_size (p : Bytes) (c c' : Conn) (h : writePacket p c = (.ok (), c')) :
    c'.tx.length = c.tx.length + p.length + 4 * (p.length / 16777215 + 1) := by
  obtain ⟨t, f, s, o, h1, -, h3⟩ := writePacket_gen p c
  rw [h] at h1
  simp only [Prod.mk.injEq] at h1
  obtain ⟨rfl, rfl⟩ := h1
  rcases h3 with ⟨-, rfl, rfl⟩ | ⟨e, he⟩
  · simp only [List.length_append, length_frames, Spec.frameCount, Spec.maxFrame]; omega
  · cases he

/-- Whatever write failures happen, only a prefix of the frames is on the wire, `Ok` is returned
only if all of it is, nothing is read, and there is no panic. -/
theorem C02_faulty_write (p : Bytes) (c : Conn) :
    ∃ sent faults seq res,
      writePacket p c = (res, { c with tx := c.tx ++ sent, wfaults := faults, seqId := seq }) ∧
      sent <+: Spec.frames c.seqId p ∧ res ≠ .panic ∧
      (res = .ok () → sent = Spec.frames c.seqId p) := by
  obtain ⟨t, f, s, o, h1, h2, h3⟩ := writePacket_gen p c
  refine ⟨t, f, s, o, h1, h2, ?_, ?_⟩
  · rcases h3 with ⟨rfl, -⟩ | ⟨e, rfl⟩ <;> simp
  · rintro rfl
    rcases h3 with ⟨-, h, -⟩ | ⟨e, he⟩
    · exact h
    · cases he

/-- Framing is injective: two payloads sent from the same state are never confused. -/
theorem C02_injective (seq : UInt8) (p q : Bytes) (h : Spec.frames seq p = Spec.frames seq q) :
    p = q := by
  have h1 := receive_frames (Spec.frameCount p + Spec.frameCount q) seq p [] (by omega)
  have h2 := receive_frames (Spec.frameCount p + Spec.frameCount q) seq q [] (by omega)
  rw [h, h2] at h1
  simp at h1
  exact h1.1.symm

-- non-trivial instances
example : Spec.frames 7 [1, 2, 3] = [3, 0, 0, 7, 1, 2, 3] := by
  rw [frames_short _ _ (by unfold MAX_PAYLOAD_LEN; simp)]; rfl
/-- a payload of exactly 2^24-1 bytes is followed by an empty frame. -/
example (x : UInt8) : Spec.frames 255 (List.replicate 16777215 x)
    = [255, 255, 255, 255] ++ List.replicate 16777215 x ++ [0, 0, 0, 0] := by
  have hl : (List.replicate 16777215 x).length = MAX_PAYLOAD_LEN := List.length_replicate
  rw [frames_long _ _ (by omega), ← hl, List.take_length, List.drop_length,
    frames_short _ _ (by unfold MAX_PAYLOAD_LEN; simp), hl]
  have h1 : leBytes 3 MAX_PAYLOAD_LEN = [255, 255, 255] := by
    unfold MAX_PAYLOAD_LEN
    simp only [leBytes]
    decide
  rw [h1]
  simp only [List.append_assoc, List.cons_append, List.nil_append]
  rfl

-- one frame, how the receiver reads it, and a write that fails
example (c : Conn) (hw : c.wfaults = []) (hs : c.seqId = 7) :
    writePacket [1, 2, 3] c
      = (.ok (), { c with tx := c.tx ++ [3, 0, 0, 7, 1, 2, 3], seqId := 8 }) := by
  rw [C02_write_frames _ c hw, hs]
  have e : Spec.frames 7 [1, 2, 3] = [3, 0, 0, 7, 1, 2, 3] := by decide +kernel
  rw [e]; rfl

example : Spec.receive 1 7 ([3, 0, 0, 7, 1, 2, 3] ++ [9, 9]) = some ([1, 2, 3], 8, [9, 9]) := by
  decide +kernel
-- the second write call fails after one byte

example :
    let c := { exConn [] with wfaults := [none, some (1, .closed)] }
    let (r, c') := writePacket [1, 2, 3] c
    (r, c'.tx) = (.err (.protocol (.io .closed)), [3, 0, 0, 1, 1]) := by decide +kernel

end Verif

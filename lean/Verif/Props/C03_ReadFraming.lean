import Verif.Proofs.Io
import Verif.Proofs.Example

/-! # C03 — what is received is reassembled correctly -/

namespace Verif

/-- If the server's bytes are the protocol's frames of `p` from the expected sequence id, the
payload returned is exactly `p`, the bytes that follow stay unread, and nothing is sent. -/
theorem C03_read_frames (p : Bytes) (rest : List Rx) (c : Conn)
    (h : c.rx = (Spec.frames c.seqId p).map Rx.byte ++ rest) :
    readPacket c = (.ok p, { c with
      rx := rest, seqId := c.seqId + UInt8.ofNat (Spec.frameCount p) }) :=
  readPacket_frames p rest c h

/-- Everything one side of this library sends, the other side reads back unchanged: for any
number of payloads, in order. -/
def sendAll : List Bytes → M Unit
  | [] => pure ()
  | p :: ps => do writePacket p; sendAll ps

/-- read `n` packets. -/
def readAll : Nat → M (List Bytes)
  | 0 => pure []
  | n + 1 => do
    let p ← readPacket
    let ps ← readAll n
    pure (p :: ps)

theorem C03_roundtrip (ps : List Bytes) (a : Conn) (rest : List Rx) (hw : a.wfaults = []) :
    ∃ sent a', sendAll ps a = (.ok (), a') ∧ a'.tx = a.tx ++ sent ∧
      ∀ b : Conn, b.seqId = a.seqId → b.rx = sent.map Rx.byte ++ rest →
        readAll ps.length b = (.ok ps, { b with rx := rest, seqId := a'.seqId }) := by
  induction ps generalizing a with
  | nil =>
    refine ⟨[], a, rfl, by simp, ?_⟩
    intro b h1 h2
    simp at h2
    simp [readAll, ← h1, ← h2]
  | cons p ps ih =>
    have h1 := writePacket_ok p a hw
    obtain ⟨sent, a', h2, h3, h4⟩ := ih
      { a with tx := a.tx ++ Spec.frames a.seqId p,
               seqId := a.seqId + UInt8.ofNat (Spec.frameCount p) } hw
    refine ⟨Spec.frames a.seqId p ++ sent, a', ?_, by rw [h3]; simp, ?_⟩
    · rw [sendAll, SM.bind_of_ok h1]; exact h2
    · intro b hs hrx
      have h5 := readPacket_frames p (rxOf sent ++ rest) b (by rw [hrx, hs]; simp [rxOf])
      rw [List.length_cons, readAll, SM.bind_of_ok h5]
      rw [SM.bind_of_ok (h4 _ (by rw [← hs]) rfl)]
      simp

/-- The receiver agrees with the independent receiver of the specification: whenever the latter
accepts the bytes that arrive, the library returns the same payload, next sequence id and
remaining bytes. -/
theorem C03_accepts_what_spec_accepts (fuel : Nat) (bytes p rest : Bytes) (q : UInt8) (c : Conn)
    (hs : Spec.receive fuel c.seqId bytes = some (p, q, rest))
    (h : c.rx = bytes.map Rx.byte) :
    readPacket c = (.ok p, { c with rx := rest.map Rx.byte, seqId := q }) := by
  have key : ∀ fuel (seq : UInt8) bytes p q rest, Spec.receive fuel seq bytes = some (p, q, rest) →
      bytes = Spec.frames seq p ++ rest ∧ q = seq + UInt8.ofNat (Spec.frameCount p) := by
    intro fuel
    induction fuel with
    | zero => intro seq bytes p q rest h; simp [Spec.receive] at h
    | succ fuel ih =>
      intro seq bytes p q rest h
      match bytes, h with
      | l0 :: l1 :: l2 :: s :: r, h =>
        simp only [Spec.receive, leNat_three_eq] at h
        have hlt := leNat_three l0 l1 l2
        have hle := leBytes_three_leNat l0 l1 l2
        split at h
        · cases h
        · rename_i hseq
          have hseq : s = seq := Decidable.not_not.mp hseq
          subst hseq
          split at h
          · cases h
          · rename_i hr
            split at h
            · rename_i hlt'
              simp only [Option.some.injEq, Prod.mk.injEq] at h
              obtain ⟨rfl, rfl, rfl⟩ := h
              have hl : (r.take (leNat [l0, l1, l2])).length = leNat [l0, l1, l2] := by
                rw [List.length_take]; omega
              rw [← MAX_eq] at hlt'
              rw [frames_short _ _ (by rw [hl]; exact hlt'), frameCount_short _ (by rw [hl]; exact hlt'),
                hl, hle]
              simp
            · rename_i hge
              have hn : leNat [l0, l1, l2] = MAX_PAYLOAD_LEN := by
                rw [← MAX_eq] at hge
                unfold MAX_PAYLOAD_LEN at *; omega
              split at h
              · rename_i p' q' r' h'
                simp only [Option.some.injEq, Prod.mk.injEq] at h
                obtain ⟨rfl, rfl, rfl⟩ := h
                obtain ⟨h1, h2⟩ := ih _ _ _ _ _ h'
                rw [hn] at h1 hr hle ⊢
                have htl : (r.take MAX_PAYLOAD_LEN).length = MAX_PAYLOAD_LEN := by
                  rw [List.length_take]; omega
                have hl : MAX_PAYLOAD_LEN ≤ (r.take MAX_PAYLOAD_LEN ++ p').length := by
                  rw [List.length_append]; omega
                have hd : (r.take MAX_PAYLOAD_LEN ++ p').drop MAX_PAYLOAD_LEN = p' := by
                  exact List.drop_left' htl
                have ht : (r.take MAX_PAYLOAD_LEN ++ p').take MAX_PAYLOAD_LEN
                    = r.take MAX_PAYLOAD_LEN := by
                  exact List.take_left' htl
                rw [frames_long _ _ hl, frameCount_long _ hl, hd, ht, hle, ← seq_add_one_add]
                refine ⟨?_, h2⟩
                simp only [List.append_assoc, List.cons_append, List.nil_append]
                rw [← h1, List.take_append_drop]
              · cases h
  obtain ⟨rfl, rfl⟩ := key _ _ _ _ _ _ hs
  exact readPacket_frames p (rest.map Rx.byte) c (by rw [h]; simp [rxOf])

-- a concrete packet, with the beginning of the next one left unread
example (c : Conn) (h : c.seqId = 2) :
    readPacket { c with rx := [3, 0, 0, 2, 10, 11, 12, 1, 0].map Rx.byte }
      = (.ok [10, 11, 12], { c with rx := [1, 0].map Rx.byte, seqId := 3 }) := by
  have := C03_read_frames [10, 11, 12] ([1, 0].map Rx.byte)
    { c with rx := [3, 0, 0, 2, 10, 11, 12, 1, 0].map Rx.byte } (by
      rw [frames_short _ _ (by unfold MAX_PAYLOAD_LEN; simp)]; simp only [h]; rfl)
  rw [this]
  simp only [h]
  rfl

-- three packets, one of them empty, sent and read again
example :
    (match sendAll [[1, 2, 3], [], [4]] (exConn []) with
      | (.ok (), a) => (readAll 3 (exConn (a.tx ++ [9]))).1
      | _ => .panic) = .ok [[1, 2, 3], [], [4]] := by decide +kernel

end Verif

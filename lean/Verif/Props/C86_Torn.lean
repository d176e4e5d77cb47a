import Verif.Props.C68_MigratorWire
import Verif.Spec.SqlTokens
import Verif.Spec.Commands

/-!
# C86 — the server reads the commands that were issued

A command whose writing fails half-way (a timeout of the stream, say) leaves the first part of a packet on
the stream, and the connection can be used further.
-/

namespace Verif

open Spec (receive frames)

/-! ### a part of a packet -/

/-- more bytes and more fuel change nothing about what was received. -/
theorem receive_more {fuel : Nat} {seq q : UInt8} {s p r : Bytes} (h : receive fuel seq s = some (p, q, r))
    (k : Nat) (u : Bytes) : receive (fuel + k) seq (s ++ u) = some (p, q, r ++ u) := by
  induction fuel generalizing seq s p q r with
  | zero => cases h
  | succ fuel ih =>
    rw [Nat.add_right_comm]
    rw [receive.eq_def] at h ⊢
    dsimp only at h ⊢
    match s, h with
    | l0 :: l1 :: l2 :: q' :: s, h =>
      simp only [List.cons_append] at h ⊢
      generalize l0.toNat + 256 * l1.toNat + 65536 * l2.toNat = n at h ⊢
      by_cases h1 : q' ≠ seq
      · rw [if_pos h1] at h; cases h
      · rw [if_neg h1] at h ⊢
        by_cases h2 : s.length < n
        · rw [if_pos h2] at h; cases h
        · rw [if_neg h2] at h
          rw [if_neg (by rw [List.length_append]; omega)]
          rw [List.take_append_of_le_length (by omega), List.drop_append_of_le_length (by omega)]
          by_cases h3 : n < Spec.maxFrame
          · rw [if_pos h3] at h ⊢
            simp only [Option.some.injEq, Prod.mk.injEq] at h ⊢
            obtain ⟨rfl, rfl, rfl⟩ := h
            exact ⟨rfl, rfl, rfl⟩
          · rw [if_neg h3] at h ⊢
            match hr : receive fuel (seq + 1) (s.drop n), h with
            | some (p', q'', r'), h =>
              rw [ih hr]
              simp only [Option.some.injEq, Prod.mk.injEq] at h ⊢
              obtain ⟨rfl, rfl, rfl⟩ := h
              exact ⟨rfl, rfl, rfl⟩

/-- a receiver is not content with a part of a packet. -/
theorem receive_part (fuel : Nat) (seq : UInt8) (p t u : Bytes) (h : frames seq p = t ++ u) (hu : u ≠ []) :
    receive fuel seq t = none := by
  match hr : receive fuel seq t with
  | none => rfl
  | some (p', q, r) =>
    have h1 := receive_more hr (Spec.frameCount p) u
    have h2 := receive_frames (fuel + Spec.frameCount p) seq p [] (Nat.le_add_left ..)
    rw [List.append_nil, h, h1] at h2
    simp only [Option.some.injEq, Prod.mk.injEq, List.append_eq_nil_iff] at h2
    exact absurd h2.2.2.2 hu

/-! ### one command -/

theorem bind_err_cases {σ ε α β : Type} {m : SM σ ε α} {f : α → SM σ ε β} {s s'' : σ} {e : ε}
    (h : (m >>= f) s = (.err e, s'')) : m s = (.err e, s'') ∨ ∃ a s', m s = (.ok a, s') ∧ f a s' = (.err e, s'') := by
  match hm : m s with
  | (.ok a, s') => rw [SM.bind_of_ok hm] at h; exact Or.inr ⟨a, s', rfl, h⟩
  | (.err e', s') => rw [SM.bind_of_err hm] at h; cases h; exact Or.inl rfl
  | (.panic, s') => rw [SM.bind_of_panic hm] at h; cases h

theorem writeRaw_io (bs : Bytes) (c c' : Conn) (e : Error) (h : writeRaw bs c = (.err e, c')) :
    ∃ k, e = .protocol (.io k) := by
  unfold writeRaw at h
  split at h
  · cases h
  · cases h
  · cases h; exact ⟨_, rfl⟩

theorem writeChunks_io (bs : Bytes) (c c' : Conn) (e : Error) (h : writeChunks bs c = (.err e, c')) :
    ∃ k, e = .protocol (.io k) := by
  induction hn : bs.length using Nat.strongRecOn generalizing bs c with
  | _ n ih =>
    rw [writeChunks] at h
    split at h
    · cases h
    · next h0 =>
      have hpos : 0 < bs.length := List.length_pos_iff.2 h0
      dsimp only at h
      rw [SM.get_bind_apply] at h
      rcases bind_err_cases h with h1 | ⟨_, c1, -, h⟩
      · exact writeRaw_io _ _ _ _ h1
      rcases bind_err_cases h with h1 | ⟨_, c2, -, h⟩
      · exact writeRaw_io _ _ _ _ h1
      rw [SM.modify_bind_apply] at h
      exact ih _ (by rw [List.length_drop]; unfold MAX_PAYLOAD_LEN; omega) _ _ h rfl

theorem writePacket_io (bs : Bytes) (c c' : Conn) (e : Error) (h : writePacket bs c = (.err e, c')) :
    ∃ k, e = .protocol (.io k) := by
  unfold writePacket at h
  rcases bind_err_cases h with h1 | ⟨_, c1, -, h⟩
  · exact writeChunks_io _ _ _ _ h1
  · split at h
    · rw [SM.get_bind_apply] at h
      rcases bind_err_cases h with h1 | ⟨_, c2, -, h⟩
      · exact writeRaw_io _ _ _ _ h1
      · cases h
    · cases h

theorem executeQuery_write (sql : Str) (c : Conn) (hp : c.pendingResult = false) :
    ∃ t u, frames 0 (0x03 :: utf8 sql) = t ++ u ∧ (executeQuery sql c).2.tx = c.tx ++ t ∧
      (u ≠ [] → ∃ k, (executeQuery sql c).1 = .err (.protocol (.io k))) ∧
      (executeQuery sql c).2.pendingResult = false := by
  obtain ⟨t, f, s, o, h1, ⟨u, h2⟩, h3⟩ := writePacket_gen (0x03 :: utf8 sql) { c with seqId := 0 }
  have he : executeCommand .query (utf8 sql) c = (o, { c with tx := c.tx ++ t, wfaults := f, seqId := s }) := by
    unfold executeCommand
    rw [SM.bind_of_ok (cleanup_clean c hp), SM.modify_bind_apply]
    exact h1
  refine ⟨t, u, h2.symm, ?_⟩
  unfold executeQuery
  rcases h3 with ⟨rfl, h4, -⟩ | ⟨e, rfl⟩
  · rw [SM.bind_of_ok he]
    have hcalm : Calm (readResponse >>= okOrServerError) :=
      Calm.bind Calm.readResponse fun _ => Calm.okOrServerError _
    obtain ⟨r1, -⟩ := readOnly_response { c with tx := c.tx ++ t, wfaults := f, seqId := s }
    obtain ⟨-, c2⟩ := hcalm { c with tx := c.tx ++ t, wfaults := f, seqId := s } hp
    refine ⟨r1, fun hu => ?_, c2⟩
    rw [h4] at h2
    exact absurd (List.append_right_eq_self.1 h2) hu
  · rw [SM.bind_of_err he]
    obtain ⟨k, rfl⟩ := writePacket_io _ _ _ _ h1
    exact ⟨rfl, fun _ => ⟨_, rfl⟩, hp⟩

/-- **C86** for one call: what it puts on the stream is its command, or a part of it with which the server does
nothing; and then the caller is told that the stream failed.
Missing: what the server reads if the connection is used further (`C86_torn_violated`). -/
theorem C86_one_partial (sql : Str) (c : Conn) (hp : c.pendingResult = false) :
    ∃ t, (executeQuery sql c).2.tx = c.tx ++ t ∧
      (t = frames 0 (0x03 :: utf8 sql) ∨
       (t <+: frames 0 (0x03 :: utf8 sql) ∧ (∀ fuel, receive fuel 0 t = none) ∧
        ∃ k, (executeQuery sql c).1 = .err (.protocol (.io k)))) := by
  obtain ⟨t, u, h1, h2, h3, -⟩ := executeQuery_write sql c hp
  refine ⟨t, h2, ?_⟩
  by_cases hu : u = []
  · left; rw [h1, hu, List.append_nil]
  · exact Or.inr ⟨⟨u, h1.symm⟩, fun fuel => receive_part fuel 0 _ t u h1 hu, h3 hu⟩

/-! ### several -/

/-- one who gives up the connection when the stream fails, but goes on after other errors. -/
def careful : List Str → Conn → List (Out Error OkPacket) × Conn
  | [], c => ([], c)
  | sql :: sqls, c =>
    let x := executeQuery sql c
    match x.1 with
    | .err (.protocol (.io k)) => ([.err (.protocol (.io k))], x.2)
    | o => let y := careful sqls x.2; (o :: y.1, y.2)

theorem frameCount_le (p : Bytes) (seq : UInt8) : Spec.frameCount p ≤ (frames seq p).length := by
  induction hn : p.length using Nat.strongRecOn generalizing p seq with
  | _ n ih =>
    by_cases hl : p.length < MAX_PAYLOAD_LEN
    · rw [frameCount_short _ hl, frames_short _ _ hl]
      simp only [List.length_append, List.length_cons]; omega
    · have hl' : MAX_PAYLOAD_LEN ≤ p.length := by omega
      rw [frameCount_long _ hl', frames_long _ _ hl']
      have := ih _ (by rw [List.length_drop]; unfold MAX_PAYLOAD_LEN at *; omega) (p.drop MAX_PAYLOAD_LEN) (seq + 1) rfl
      simp only [List.length_append, List.length_cons]; omega

theorem receive_first (p rest : Bytes) :
    receive (frames 0 p ++ rest).length 0 (frames 0 p ++ rest) = some (p, UInt8.ofNat (Spec.frameCount p), rest) := by
  have h := receive_frames (frames 0 p ++ rest).length 0 p rest
    (by have := frameCount_le p 0; rw [List.length_append]; omega)
  rw [h, UInt8.zero_add]

theorem receive_shrinks {fuel : Nat} {seq q : UInt8} {s p r : Bytes} (h : receive fuel seq s = some (p, q, r)) :
    r.length < s.length := by
  induction fuel generalizing seq s p q r with
  | zero => cases h
  | succ fuel ih =>
    rw [receive.eq_def] at h
    dsimp only at h
    match s, h with
    | l0 :: l1 :: l2 :: q' :: s, h =>
      simp only at h
      generalize l0.toNat + 256 * l1.toNat + 65536 * l2.toNat = n at h
      split at h
      · cases h
      · split at h
        · cases h
        · split at h
          · simp only [Option.some.injEq, Prod.mk.injEq] at h
            obtain ⟨-, -, rfl⟩ := h
            simp only [List.length_drop, List.length_cons]; omega
          · match hr : receive fuel (seq + 1) (s.drop n), h with
            | some (p', q'', r'), h =>
              simp only [Option.some.injEq, Prod.mk.injEq] at h
              obtain ⟨-, -, rfl⟩ := h
              have := ih hr
              simp only [List.length_drop, List.length_cons] at *
              omega

theorem readCommandsN_enough (n m : Nat) (s : Bytes) (hn : s.length ≤ n) (hm : s.length ≤ m) :
    Spec.readCommandsN n s = Spec.readCommandsN m s := by
  induction n generalizing m s with
  | zero =>
    have : s = [] := List.length_eq_zero_iff.1 (by omega)
    subst this
    cases m <;> rfl
  | succ n ih =>
    cases m with
    | zero =>
      have : s = [] := List.length_eq_zero_iff.1 (by omega)
      subst this
      rfl
    | succ m =>
      unfold Spec.readCommandsN
      match h : receive s.length 0 s with
      | none => rfl
      | some (p, q, r) =>
        dsimp only
        have := receive_shrinks h
        rw [ih m r (by omega) (by omega)]

theorem readCommands_frames (p : Bytes) (rest : Bytes) :
    Spec.readCommands (frames 0 p ++ rest) = p :: Spec.readCommands rest := by
  have h := receive_first p rest
  have hl := receive_shrinks h
  unfold Spec.readCommands
  obtain ⟨n, hn⟩ : ∃ n, (frames 0 p ++ rest).length = n + 1 := ⟨(frames 0 p ++ rest).length - 1, by omega⟩
  rw [show Spec.readCommandsN (frames 0 p ++ rest).length = Spec.readCommandsN (n + 1) by rw [hn], Spec.readCommandsN, h]
  dsimp only
  rw [readCommandsN_enough n rest.length rest (by omega) (Nat.le_refl _)]

theorem readCommands_part (p t u : Bytes) (h : frames 0 p = t ++ u) (hu : u ≠ []) : Spec.readCommands t = [] := by
  unfold Spec.readCommands
  cases hn : t.length with
  | zero => rfl
  | succ n =>
    rw [Spec.readCommandsN, receive_part _ 0 p t u h hu]

theorem careful_from (sqls : List Str) (c : Conn) (hp : c.pendingResult = false) :
    ∃ n t, n ≤ (careful sqls c).1.length ∧
      (∀ i o, (careful sqls c).1[i]? = some o → (∀ k, o ≠ .err (.protocol (.io k))) → i < n) ∧
      (careful sqls c).2.tx = c.tx ++ t ∧ Spec.readCommands t = (sqls.take n).map fun s => 0x03 :: utf8 s := by
  induction sqls generalizing c with
  | nil => exact ⟨0, [], Nat.le_refl _, (fun i o h => by cases h), (List.append_nil _).symm, rfl⟩
  | cons sql sqls ih =>
    obtain ⟨t, u, h1, h2, h3, h4⟩ := executeQuery_write sql c hp
    by_cases hio : ∃ k, (executeQuery sql c).1 = .err (.protocol (.io k))
    · obtain ⟨k, hk⟩ := hio
      have hc : careful (sql :: sqls) c = ([.err (.protocol (.io k))], (executeQuery sql c).2) := by
        rw [careful]; dsimp only; rw [hk]
      rw [hc]
      have hout : ∀ (n i : Nat) o, ([Out.err (Error.protocol (.io k))] : List (Out Error OkPacket))[i]? = some o →
          (∀ k, o ≠ Out.err (Error.protocol (.io k))) → i < n := by
        intro n i o h hne
        cases i with
        | zero => cases h; exact absurd rfl (hne k)
        | succ i => cases h
      by_cases hu : u = []
      · refine ⟨1, t, Nat.le_refl _, hout 1, h2, ?_⟩
        rw [hu, List.append_nil] at h1
        have := readCommands_frames (0x03 :: utf8 sql) []
        rw [List.append_nil] at this
        rw [← h1, this]
        rfl
      · exact ⟨0, t, Nat.zero_le _, hout 0, h2, readCommands_part _ t u h1 hu⟩
    · have hu : u = [] := by
        by_contra hu
        exact hio (h3 hu)
      rw [hu, List.append_nil] at h1
      have hc : careful (sql :: sqls) c = ((executeQuery sql c).1 :: (careful sqls (executeQuery sql c).2).1,
          (careful sqls (executeQuery sql c).2).2) := by
        rw [careful]
        dsimp only
        split
        · next k hk => exact absurd ⟨k, hk⟩ hio
        · rfl
      rw [hc]
      obtain ⟨n, t', a1, a2, a3, a4⟩ := ih (executeQuery sql c).2 h4
      refine ⟨n + 1, t ++ t', by simpa using a1, fun i o h hne => ?_, ?_, ?_⟩
      · cases i with
        | zero => omega
        | succ i => have := a2 i o (by simpa using h) hne; omega
      · rw [a3, h2, List.append_assoc]
      · rw [← h1, readCommands_frames, a4]
        rfl

/-- **C86** for one who gives up the connection when the stream fails: however many bytes of the failed write
have arrived, the server has read the first `n` of the commands issued and nothing else, and each of those
that did not fail with the stream.
Missing: using the connection further (`C86_torn_violated`). -/
theorem C86_careful_partial (sqls : List Str) (c : Conn) (hp : c.pendingResult = false) (h0 : c.tx = []) :
    ∃ n, n ≤ (careful sqls c).1.length ∧
      (∀ i o, (careful sqls c).1[i]? = some o → (∀ k, o ≠ .err (.protocol (.io k))) → i < n) ∧
      Spec.readCommands (careful sqls c).2.tx = (sqls.take n).map fun s => 0x03 :: utf8 s := by
  obtain ⟨n, t, h1, h2, h3, h4⟩ := careful_from sqls c hp
  rw [h0, List.nil_append] at h3
  exact ⟨n, h1, h2, by rw [h3, h4]⟩

/-! ### used further -/

/-- The writing of a command stops after `k` bytes of it; the connection is used for another one. The server
reads one command, which is neither: it begins with those `k` bytes and goes on with the bytes of the second one, its
header first; and if more bytes than these are left it goes on behind them. -/
theorem C86_torn_violated (one two : Str) (k : Nat) (e : IoKind) (c : Conn) (hp : c.pendingResult = false)
    (h0 : c.tx = []) (hw : c.wfaults = [none, some (k, e)])
    (hlen : (utf8 one).length + 1 < Spec.maxFrame) (hk : k ≤ (utf8 one).length)
    (hfit : (utf8 one).length + 1 ≤ k + (frames 0 (0x03 :: utf8 two)).length) :
    let p := 0x03 :: utf8 one
    let q := frames 0 (0x03 :: utf8 two)
    (executeQuery one c).1 = .err (.protocol (.io e)) ∧
    Spec.readCommands (executeQuery two (executeQuery one c).2).2.tx =
      (p.take k ++ q.take (p.length - k)) :: Spec.readCommands (q.drop (p.length - k)) := by
  intro p q
  have hfit' : (utf8 one).length + 1 ≤ k + q.length := hfit
  have hpl : p.length = (utf8 one).length + 1 := rfl
  have hM : p.length < MAX_PAYLOAD_LEN := by rw [MAX_eq]; omega
  have hM2 : MAX_PAYLOAD_LEN < 2 ^ 24 := by unfold MAX_PAYLOAD_LEN; omega
  have h1 : executeQuery one c = (.err (.protocol (.io e)),
      { c with tx := leBytes 3 p.length ++ [0] ++ p.take k, wfaults := [], seqId := 0 }) := by
    unfold executeQuery
    refine SM.bind_of_err ?_
    unfold executeCommand
    rw [SM.bind_of_ok (cleanup_clean c hp), SM.modify_bind_apply]
    unfold writePacket
    refine SM.bind_of_err ?_
    rw [writeChunks, dif_neg (by simp)]
    have hm : min (Command.query.toByte :: utf8 one).length MAX_PAYLOAD_LEN = p.length :=
      Nat.min_eq_left (Nat.le_of_lt hM)
    simp only [hm, SM.get_bind_apply]
    rw [header_bytes _ _ (by omega)]
    have hr : writeRaw (leBytes 3 p.length ++ [0]) { c with seqId := 0 } =
        (.ok (), { c with tx := leBytes 3 p.length ++ [0], wfaults := [some (k, e)], seqId := 0 }) := by
      unfold writeRaw
      dsimp only
      rw [hw, h0]
      rfl
    rw [SM.bind_of_ok hr]
    refine SM.bind_of_err ?_
    unfold writeRaw
    dsimp only
    rw [List.take_of_length_le (l := Command.query.toByte :: utf8 one) (by rw [hpl]; simp)]
    rfl
  refine ⟨by rw [h1], ?_⟩
  rw [h1]
  obtain ⟨-, h2, -, -⟩ := executeQuery_any two
    { c with tx := leBytes 3 p.length ++ [0] ++ p.take k, wfaults := [], seqId := 0 } hp rfl
  rw [h2]
  change Spec.readCommands (leBytes 3 p.length ++ [0] ++ p.take k ++ q) = _
  have hq : p.length - k ≤ q.length := by omega
  have hl : (p.take k ++ q.take (p.length - k)).length = p.length := by
    simp only [List.length_append, List.length_take]; omega
  have hx := readCommands_frames (p.take k ++ q.take (p.length - k)) (q.drop (p.length - k))
  rw [← hx]
  congr 1
  rw [frames_short 0 (p.take k ++ q.take (p.length - k)) (by omega), hl]
  simp only [List.append_assoc]
  rw [List.take_append_drop]

namespace C86ex

def one : Str := "insert into `log` (`a`) values ('....................')".toList
def two : Str := "select '), (2), ('".toList

def c : Conn := { exConn [] with wfaults := [none, some (37, .timedOut)] }
def sent : Bytes := (executeQuery two (executeQuery one c).2).2.tx

end C86ex

open C86ex in
/-- An insert of one row is torn inside its literal; then somebody asks for a text that looks like SQL, properly
quoted. The server reads a complete insert of two rows, of which the second is what was quoted. -/
theorem C86_example :
    Spec.tokens one = some [.word "insert".toList, .word "into".toList, .name "log".toList,
      .punct '(', .name "a".toList, .punct ')', .word "values".toList,
      .punct '(', .str "....................".toList, .punct ')'] ∧
    Spec.tokens two = some [.word "select".toList, .str "), (2), (".toList] ∧
    ((Spec.readCommands sent).map fun p => (p.head?, (fromUtf8 p.tail).bind Spec.tokens)) =
      [(some 3, some [.word "insert".toList, .word "into".toList, .name "log".toList,
        .punct '(', .name "a".toList, .punct ')', .word "values".toList,
        .punct '(', .str ("...".toList ++ [Char.ofNat 19, Char.ofNat 0, Char.ofNat 0, Char.ofNat 0, Char.ofNat 3] ++
          "select ".toList), .punct ')', .punct ',',
        .punct '(', .num 2, .punct ')'])] ∧
    (executeQuery one c).1 = .err (.protocol (.io .timedOut)) := by
  refine ⟨?_, ?_, ?_, ?_⟩ <;> decide +kernel

end Verif

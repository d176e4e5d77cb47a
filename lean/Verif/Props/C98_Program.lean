import Verif.Props.C15_OkPackets
import Verif.Props.C64_Session
import Verif.Props.C97_Several
import Verif.Props.C70_Derive

/-!
# C98 — a whole program: log in, create a table, insert models, query them, disconnect

The program of examples/hello_world.rs, for any models, server and way to log in.
-/

namespace Verif

open Spec (SqlServer SqlState Tables Row Rec Database Insertable InsertedAll shape HasField)
open Spec.SqlServer (Stores withRow meanings)

/-- an object as it is read from a row: its fields by their names along the references. -/
abbrev Obj (X : Type) := List ((List Str × Str) × X)

/-- examples/hello_world.rs 14-73 with `?` instead of `unwrap()`, for any table and models. -/
def firstSession {X : Type} (cr : Crypto) (alnum : Char → Bool) (fp : FloatParse) (create : Str)
    (mvs : List ModelVal) (m : ModelDef) (conv : List Str × Str → Value → Out ParseError X) :
    M (List UInt64 × List (Obj X)) := do
  connect cr alnum fp
  let _ ← executeQuery create
  let ids ← insertAll mvs
  let rs ← query (buildQuery m)
  let found ← rs.collect (textReader fp (buildModel conv m))
  disconnect
  pure (ids, found.2)

/-- the first command after `connect`, which may have left a part of the answer to its question. -/
theorem first_command (S : Spec.LoginServer) (o : Options) (h : Hashes) (code : UInt16)
    (state msg : Str) (e : Nat) (seed : Bytes) (alnum : Char → Bool) (fp : FloatParse)
    (hseed : seed.length = 20)
    (hc : Compatible S o h code state msg e) (hg : S.greeting.Usual alnum)
    (hd : ∀ c, 48 ≤ c.toNat → c.toNat ≤ 57 → alnum c = true) (hdot : alnum '.' = false)
    (hu : ∀ b ∈ utf8 o.user, b ≠ 0) (hdb : ∀ d, o.dbName = some d → ∀ b ∈ utf8 d, b ≠ 0)
    (hclear : S.greeting.plugin = .clear → o.allowCleartext = true)
    (limit : Nat) (answer : List Bytes) (hlimit : LimitAnswer fp limit answer) :
    ∃ messages sent received accepted,
      S.talk .login (UInt8.ofNat (Spec.frameCount S.greeting.encode)) messages =
        some (sent, received, accepted) ∧
      (utf8 o.user = S.user ∧ utf8 o.password = S.password → accepted = true) ∧
      ∀ (sql : Str) (a l : UInt64) (status warnings : UInt16) (okMsg : Str) (rest : List Rx),
        (utf8 okMsg).length < 2 ^ 64 →
        let stream := rxOf (Spec.frames 0 S.greeting.encode ++ sent) ++
          ((if o.maxAllowedPacket = none then
              rxOf (Spec.framesAll (UInt8.ofNat (Spec.frameCount (0x03 :: utf8 C57.sql))) answer)
            else []) ++ (rxOf (Spec.frames (UInt8.ofNat (Spec.frameCount (0x03 :: utf8 sql)))
              (Spec.okPacket a.toNat l.toNat status.toNat warnings.toNat okMsg)) ++ rest))
        let start := Conn.initial o stream []
        (accepted = false → ∃ c, connect (Crypto.real h seed) alnum fp start =
          (.err (.server (.error code (some (utf8 state)) msg)), c)) ∧
        (accepted = true → ∃ c c', connect (Crypto.real h seed) alnum fp start = (.ok (), c) ∧
          executeQuery sql c = (.ok (okOf a l status warnings okMsg), c') ∧
          c'.pendingResult = false ∧ c'.wfaults = [] ∧ c'.rx = rest ∧
          hasFlag32 c'.data.capabilities Cap.SESSION_TRACK = false ∧
          hasFlag32 c'.data.capabilities Cap.PROTOCOL_41 = S.greeting.caps.toNat.testBit 9 ∧
          c'.tx = received ++ ((if o.maxAllowedPacket = none then Spec.frames 0 (0x03 :: utf8 C57.sql) else []) ++
            Spec.frames 0 (0x03 :: utf8 sql))) := by
  obtain ⟨ms, sb, cb, b, h1, h2, _, h4⟩ := C63_login S o h code state msg e seed alnum hseed hc hg hd hdot
    hu hdb hclear
  refine ⟨ms, sb, cb, b, h1, h2, fun sql a l status warnings okMsg rest hm => ?_⟩
  intro stream start
  obtain ⟨c', k1, k2, k3, k4, k5, k6, k7, k8⟩ := h4
    ((if o.maxAllowedPacket = none then
        rxOf (Spec.framesAll (UInt8.ofNat (Spec.frameCount (0x03 :: utf8 C57.sql))) answer)
      else []) ++ (rxOf (Spec.frames (UInt8.ofNat (Spec.frameCount (0x03 :: utf8 sql)))
              (Spec.okPacket a.toNat l.toNat status.toNat warnings.toNat okMsg)) ++ rest))
  have k1' : login (Crypto.real h seed) alnum start = (verdictResult code state msg b, c') := k1
  have t1 : hasFlag32 c'.data.capabilities Cap.SESSION_TRACK = false := by
    rw [hasFlag32_eq _ _ 23 rfl]
    refine (k7 23).trans ?_
    rw [show Spec.implemented o.dbName.isSome 23 = false by cases o.dbName.isSome <;> decide, Bool.and_false]
  have t2 : hasFlag32 c'.data.capabilities Cap.PROTOCOL_41 = S.greeting.caps.toNat.testBit 9 := by
    rw [hasFlag32_eq _ _ 9 rfl]
    refine (k7 9).trans ?_
    rw [show Spec.implemented o.dbName.isSome 9 = true by cases o.dbName.isSome <;> decide, Bool.and_true]
  constructor
  · intro hb
    unfold connect
    rw [hb] at k1'
    exact ⟨c', SM.bind_of_err (show login (Crypto.real h seed) alnum start = (.err _, c') from k1')⟩
  · intro hb
    rw [hb] at k1'
    unfold connect
    rw [SM.bind_of_ok (show login (Crypto.real h seed) alnum start = (.ok (), c') from k1')]
    cases ho : o.maxAllowedPacket with
    | some k =>
      rw [ho] at k3 k8
      rw [C57_not_asked fp c' k (by rw [k5]; exact ho)]
      obtain ⟨q, g⟩ := C15_execute_query (c := c') (r := rest) (a := a) (l := l) (status := status)
        (warnings := warnings) (msg := okMsg) sql k6 k4 hm t1 (by simpa using k3)
      refine ⟨c', _, rfl, g, k6, k4, rfl, t1, t2, by simp [k2]⟩
    | none =>
      rw [ho] at k3
      obtain ⟨pre, post, d, cols, dpre, dpost, p, ps, st, w, e1, e2, e3, e4, e5, e6, e7, e8⟩ :=
        hlimit.shape
      obtain ⟨c2, g1, g2, g3, g4, g5, g6, g7⟩ := C57_asked fp c' pre post d cols dpre dpost limit p ps
        st w (rxOf (Spec.frames (UInt8.ofNat (Spec.frameCount (0x03 :: utf8 sql)))
              (Spec.okPacket a.toNat l.toNat status.toNat warnings.toNat okMsg)) ++ rest) k6 k4
        (by rw [k5]; exact ho) e2 e3
        e4 e5 e6 hlimit.bound e7 (by rw [k3, e1]; simp)
      have hcl := cleanup_rows c2 c2.seqId ps [] st w
        (rxOf (Spec.frames (UInt8.ofNat (Spec.frameCount (0x03 :: utf8 sql)))
              (Spec.okPacket a.toNat l.toNat status.toNat warnings.toNat okMsg)) ++ rest) e8 g4
      have hcl' : cleanup c2 = (.ok (some (eofSeen st w)), { c2 with
          rx := rxOf (Spec.frames (UInt8.ofNat (Spec.frameCount (0x03 :: utf8 sql)))
              (Spec.okPacket a.toNat l.toNat status.toNat warnings.toNat okMsg)) ++ rest
          seqId := Spec.seqAfter c2.seqId ps + 1
          pendingResult := false }) := by
        rw [show c2 = c2.feed c2.seqId (ps ++ [Spec.terminator st w])
          (rxOf (Spec.frames (UInt8.ofNat (Spec.frameCount (0x03 :: utf8 sql)))
              (Spec.okPacket a.toNat l.toNat status.toNat warnings.toNat okMsg)) ++ rest) from by
            unfold Conn.feed; rw [← g7]]
        rw [hcl]
        simp [Spec.framesAll]
      obtain ⟨q, g⟩ := C15_execute_query (c := { c2 with
          rx := rxOf (Spec.frames (UInt8.ofNat (Spec.frameCount (0x03 :: utf8 sql)))
              (Spec.okPacket a.toNat l.toNat status.toNat warnings.toNat okMsg)) ++ rest
          seqId := Spec.seqAfter c2.seqId ps + 1
          pendingResult := false }) (r := rest) (a := a) (l := l) (status := status)
        (warnings := warnings) (msg := okMsg) sql rfl g6 hm (by rw [g2]; exact t1) rfl
      refine ⟨c2, _, g1, Eq.trans ?_ g, rfl, g6, rfl, by rw [g2]; exact t1, by rw [g2]; exact t2, ?_⟩
      · unfold executeQuery
        have := executeCommand_after (cmd := .query) (data := utf8 sql) hcl' rfl
        rw [SM.bind_apply, SM.bind_apply, this]
      · simp [g3, k2]

/-- what the client receives up to the answer to the statement that creates the table. -/
def opening (L : Spec.LoginServer) (o : Options) (sent : Bytes) (limitAnswer : List Bytes) (create : Str) (ok : Bytes) :
    List Rx :=
  rxOf (Spec.frames 0 L.greeting.encode ++ sent) ++
    ((if o.maxAllowedPacket = none then
        rxOf (Spec.framesAll (UInt8.ofNat (Spec.frameCount (0x03 :: utf8 C57.sql))) limitAnswer)
      else []) ++ rxOf (Spec.frames (UInt8.ofNat (Spec.frameCount (0x03 :: utf8 create))) ok))

/-- **C98**: against a server that authenticates as in C63, tells its limit, creates the table and keeps tables as in
C66: a login that is refused ends the program with the server's error, as does a row that is refused; otherwise the
program gets the ids of its models in their order, and the query gives it every one of its models once (and, if they
have no references, beside them exactly what was in the table before).  The client has then sent exactly its commands,
the last being the one that says good-bye, and read exactly the answers. -/
theorem C98_session {X : Type} (L : Spec.LoginServer) (o : Options) (h : Hashes) (code : UInt16)
    (state msg : Str) (e : Nat) (seed : Bytes) (alnum : Char → Bool) (fp : FloatParse)
    (hseed : seed.length = 20)
    (hc : Compatible L o h code state msg e) (hg : L.greeting.Usual alnum)
    (hd : ∀ c, 48 ≤ c.toNat → c.toNat ≤ 57 → alnum c = true) (hdot : alnum '.' = false)
    (hu : ∀ b ∈ utf8 o.user, b ≠ 0) (hdb : ∀ d, o.dbName = some d → ∀ b ∈ utf8 d, b ≠ 0)
    (hclear : L.greeting.plugin = .clear → o.allowCleartext = true)
    (limit : Nat) (answer : List Bytes) (hlimit : LimitAnswer fp limit answer)
    (S : SqlServer) (hS : Fair S) (h41 : S.protocol41 = L.greeting.caps.toNat.testBit 9)
    (m : ModelDef) (hs : Spec.ModelDef.Sound m) (mvs : List ModelVal) (hm : ∀ mv ∈ mvs, Insertable S m mv)
    (st : SqlState) (create : Str) (a l : UInt64) (status warnings : UInt16) (okMsg : Str)
    (hok : (utf8 okMsg).length < 2 ^ 64) :
    ∃ messages sent received accepted cmds sent2 st',
      L.talk .login (UInt8.ofNat (Spec.frameCount L.greeting.encode)) messages = some (sent, received, accepted) ∧
      (utf8 o.user = L.user ∧ utf8 o.password = L.password → accepted = true) ∧
      S.talk st cmds = some (st', sent2, Spec.commands cmds) ∧
      let start := opening L o sent answer create
        (Spec.okPacket a.toNat l.toNat status.toNat warnings.toNat okMsg) ++ rxOf sent2
      (accepted = false → ∀ tail conv, (firstSession (X := X) (Crypto.real h seed) alnum fp create mvs m conv
          (Conn.initial o (start ++ tail) [])).1 = .err (.server (.error code (some (utf8 state)) msg))) ∧
      (accepted = true →
        (∃ done mv rest log1 ids log t fs e, mvs = done ++ mv :: rest ∧ InsertedAll done log1 ids ∧
          Spec.Begun mv.intoActive log (.ok (t, fs)) ∧ Stores S st.rows (log1 ++ log) st'.rows ∧
          S.refuses st'.rows (withRow st'.rows t (S.record st'.rows t (meanings fs))) = some e ∧
          ∀ tail conv, (firstSession (X := X) (Crypto.real h seed) alnum fp create mvs m conv
            (Conn.initial o (start ++ tail) [])).1 = .err (refusal S e)) ∨
        (∃ log ids, InsertedAll mvs log ids ∧ ids.length = mvs.length ∧ Stores S st.rows log st'.rows ∧
          ∀ (conv : List Str × Str → Value → Out ParseError X)
            (ts : List Spec.Tok) (q : Spec.Select) (descs : List Spec.ColDesc) (cols : List Column)
            (rows : List (List Spec.Datum)) (ps : List Bytes) (status warnings : Nat) (r : List Rx),
            (S.database st'.rows).Keyed m →
            Spec.tokens (buildQuery m) = some ts → Spec.parseSelect ts = some q →
            DescsAs descs cols → descs.length < 2 ^ 56 →
            descs.map (fun d => (d.table, d.orgName)) = q.items →
            rows.Perm ((S.database st'.rows).select q) → TextRows fp cols rows ps →
            (∀ r ∈ st'.rows m.table, ∀ p c v r', HasField m p c →
              (S.database st'.rows).follow m r p = some r' → Spec.meaning v = r' c → ∃ x, conv (p, c) v = .ok x) →
            ∃ objs c, firstSession (Crypto.real h seed) alnum fp create mvs m conv
                (Conn.initial o (start ++ (rxOf (Spec.framesAll
                  (UInt8.ofNat (Spec.frameCount (0x03 :: utf8 (buildQuery m))))
                  (Spec.resultSet descs ps status warnings)) ++ r)) []) = (.ok (ids, objs), c) ∧
              c.rx = r ∧
              c.tx = received ++ Spec.commands ((if o.maxAllowedPacket = none then [0x03 :: utf8 C57.sql] else []) ++
                [0x03 :: utf8 create] ++ cmds ++ [0x03 :: utf8 (buildQuery m), [0x01]]) ∧
              ∃ found, found.Subperm objs ∧ List.Forall₂ (IsModel S conv m) (mvs.zip ids) found ∧
                (m.refs = .nil → ∃ old, objs.Perm (old ++ found) ∧
                  List.Forall₂ (IsObject conv (S.database st'.rows) m) old (st.rows m.table)))) := by
  obtain ⟨ms, sent, received, accepted, l1, l2, l3⟩ := first_command L o h code state msg e seed alnum fp hseed hc hg
    hd hdot hu hdb hclear limit answer hlimit
  obtain ⟨cmds, sent2, st', s1, s2⟩ := C97_found (X := X) S hS m hs mvs hm st
  refine ⟨ms, sent, received, accepted, cmds, sent2, st', l1, l2, s1, ?_, ?_⟩
  · intro hb tail conv
    obtain ⟨c, g⟩ := (l3 create a l status warnings okMsg (rxOf sent2 ++ tail) hok).1 hb
    unfold opening firstSession
    simp only [List.append_assoc] at g ⊢
    rw [SM.bind_of_err g]
  · intro hb
    have first := fun tail => (l3 create a l status warnings okMsg (rxOf sent2 ++ tail) hok).2 hb
    rcases s2 with ⟨done, mv, rest, log1, ids, log, t, fs, e', b0, b1, b2, b3, b4, b5⟩ | ⟨log, ids, b1, b2, b3, b4⟩
    · refine .inl ⟨done, mv, rest, log1, ids, log, t, fs, e', b0, b1, b2, b3, b4, fun tail conv => ?_⟩
      obtain ⟨c, c', g1, g2, g3, g4, g5, g6, g7, g8⟩ := first tail
      obtain ⟨q, g9⟩ := b5 c' tail ⟨g3, g4, g6, g7.trans h41.symm, g5⟩
      unfold opening firstSession
      simp only [List.append_assoc] at g1 ⊢
      rw [SM.bind_of_ok g1, SM.bind_of_ok g2, SM.bind_of_err g9]
    · refine .inr ⟨log, ids, b1, b2, b3, fun conv ts q descs cols rows ps status' warnings' r h1 h2 h3 h4 h5 h6 h7 h8
        h9 => ?_⟩
      obtain ⟨c, c', g1, g2, g3, g4, g5, g6, g7, g8⟩ := first (rxOf (Spec.framesAll
                  (UInt8.ofNat (Spec.frameCount (0x03 :: utf8 (buildQuery m))))
                  (Spec.resultSet descs ps status' warnings')) ++ r)
      obtain ⟨c1, c2, c3, ok, objs, k1, k2, k3, k4, k5⟩ := b4 fp conv c' ts q descs cols rows ps status' warnings' r h1
        h2 h3 h4 h5 h6 h7 h8 h9 ⟨g3, g4, g6, g7.trans h41.symm, g5⟩
      have kd : disconnect c3 = (.ok (), { c3 with tx := c3.tx ++ Spec.frames 0 [0x01], seqId := 1 }) := by
        unfold disconnect
        rw [executeCommand_clean .quit [] c3 (by rw [k4]) (by rw [k4]; exact g4)]
        rfl
      refine ⟨objs, { c3 with tx := c3.tx ++ Spec.frames 0 [0x01], seqId := 1 }, ?_, ?_, ?_, k5⟩
      · unfold opening firstSession
        simp only [List.append_assoc] at g1 ⊢
        rw [SM.bind_of_ok g1, SM.bind_of_ok g2, SM.bind_of_ok k1, SM.bind_of_ok k2, SM.bind_of_ok k3, SM.bind_of_ok kd]
        rfl
      · show c3.rx = r
        rw [k4]
      · show c3.tx ++ _ = _
        rw [k4, g8]
        simp only [commands_append', List.append_assoc]
        split <;> simp [Spec.commands]

end Verif

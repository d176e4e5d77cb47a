import Verif.Spec.SqlServer
import Verif.Proofs.Active
import Verif.Proofs.Utf8
import Verif.Props.C06_LongData
import Verif.Props.C18_Prepare

/-! # Lemmas: conversations with a server with tables -/

namespace Verif

open Spec (SqlServer SqlState Prep Tables)
open Spec.SqlServer (talk react run)

theorem talk_append (S : SqlServer) (st : SqlState) (a b : List Bytes) :
    S.talk st (a ++ b) = (S.talk st a).bind fun x => (S.talk x.1 b).map fun y =>
      (y.1, x.2.1 ++ y.2.1, x.2.2 ++ y.2.2) := by
  induction a generalizing st with
  | nil =>
    rw [List.nil_append, talk]
    simp only [Option.bind_some, List.nil_append]
    cases S.talk st b <;> rfl
  | cons m a ih =>
    rw [List.cons_append, talk, talk]
    cases S.react st m with
    | none => rfl
    | some x =>
      simp only [Option.bind_eq_bind, Option.bind_some, ih]
      cases S.talk x.1 a with
      | none => rfl
      | some y =>
        simp only [Option.bind_some]
        cases S.talk y.1 b with
        | none => rfl
        | some z => simp [List.append_assoc]

theorem commands_append' (a b : List Bytes) : Spec.commands (a ++ b) = Spec.commands a ++ Spec.commands b := by
  simp [Spec.commands]

theorem talk_one (S : SqlServer) (st st' : SqlState) (m : Bytes) (ps : List Bytes)
    (h : S.react st m = some (st', ps)) :
    S.talk st [m] = some (st', Spec.framesAll (UInt8.ofNat (Spec.frameCount m)) ps, Spec.commands [m]) := by
  rw [talk, h]
  simp [talk, Spec.commands]

/-- a packet of long data begins with its command byte. -/
theorem longStep_head {l l' : Spec.LongData} {p : Bytes} (h : Spec.longStep l p = some l') :
    ∃ bs, p = 0x18 :: bs := by
  match p with
  | [] => cases h
  | b :: bs =>
    refine ⟨bs, ?_⟩
    unfold Spec.longStep at h
    simp only [Spec.readInt, Spec.readN, List.length_cons, Option.bind_eq_bind] at h
    rw [if_pos (by omega)] at h
    simp only [List.take_succ_cons, List.take_zero, List.drop_succ_cons, List.drop_zero,
      Option.map_some, Option.bind_some] at h
    by_cases hb : Spec.unle [b] = 0x18
    · have : b = 0x18 := by
        simp [Spec.unle] at hb
        exact UInt8.toNat_inj.1 hb
      rw [this]
    · rw [if_pos hb] at h
      cases h

theorem talk_long (S : SqlServer) (st : SqlState) (long : List Bytes) (l : Spec.LongData)
    (h : Spec.longRun st.long long = some l) :
    S.talk st long = some ({ st with long := l }, [], Spec.commands long) := by
  induction long generalizing st with
  | nil =>
    cases h
    rfl
  | cons p ps ih =>
    rw [Spec.longRun] at h
    cases h1 : Spec.longStep st.long p with
    | none => rw [h1] at h; cases h
    | some l1 =>
      rw [h1] at h
      obtain ⟨bs, rfl⟩ := longStep_head h1
      have hr : S.react st (0x18 :: bs) = some ({ st with long := l1 }, []) := by
        rw [react]
        simp [h1]
      rw [talk, hr]
      simp only [Option.bind_eq_bind, Option.bind_some]
      rw [ih { st with long := l1 } h]
      simp [Spec.framesAll, Spec.commands]

/-- the commands for a statement, as the server with long data reads them. -/
theorem execCmds_read (id : UInt32) (vs : List Value) (req : ExecRequest) (l : Spec.LongData)
    (hreq : ExecRequest.new (ε := Error) id vs = .ok req) (hn : vs.length < 2 ^ 16)
    (hb : ∀ b, .bytes b ∈ vs → b.length < 2 ^ 64) (hl : ∀ j, l id.toNat j = none) :
    ∃ long l', execCmds id vs req = long ++ [req.serialize] ∧ Spec.longRun l long = some l' ∧
      Spec.readExecute vs.length (l' id.toNat) req.serialize
        = some { stmtId := id.toNat, cursorType := 0, iterations := 1, params := vs.map Spec.meaning } := by
  have h3 := ExecRequest.readExecute_spec id vs req hb hreq
  obtain ⟨l', h4, h5, -, h6⟩ := longRun_cmds id vs 0 (by omega) l (fun j _ => hl j)
  unfold execCmds
  cases ha : req.asLongData with
  | true =>
    rw [ha] at h3
    refine ⟨_, l', by rw [if_pos rfl], h4, ?_⟩
    have e : ExecRequest.longOf true vs = l' id.toNat := by
      funext i
      have := h6 i
      rw [Nat.zero_add] at this
      rw [this]
      simp only [ExecRequest.longOf, if_true]
      cases vs[i]? with
      | none => rfl
      | some v => cases v <;> rfl
    rw [← e]; exact h3
  | false =>
    rw [ha] at h3
    refine ⟨[], l, by simp, rfl, ?_⟩
    have e : ExecRequest.longOf false vs = l id.toNat := by
      funext i; simp [ExecRequest.longOf, hl]
    rw [← e]; exact h3

/-- the execute request begins with its command byte and the statement's id. -/
theorem readExecute_head {n : Nat} {long : Nat → Option Bytes} {p : Bytes} {e : Spec.Execute}
    (h : Spec.readExecute n long p = some e) :
    ∃ bs r, p = 0x17 :: bs ∧ Spec.readInt 4 bs = some (e.stmtId, r) := by
  match p with
  | [] => cases h
  | b :: bs =>
    unfold Spec.readExecute at h
    have h1 : Spec.readInt 1 (b :: bs) = some (b.toNat, bs) := by
      simp [Spec.readInt, Spec.readN, Spec.unle]
    rw [h1] at h
    simp only [Option.bind_eq_bind, Option.bind_some] at h
    by_cases hb : b.toNat = 0x17
    · have hb' : b = 0x17 := UInt8.toNat_inj.1 hb
      rw [if_neg (by simpa using hb)] at h
      cases h2 : Spec.readInt 4 bs with
      | none => rw [h2] at h; cases h
      | some x =>
        refine ⟨bs, x.2, by rw [hb'], ?_⟩
        rw [h2] at h
        simp only [Option.bind_some] at h
        have : e.stmtId = x.1 := by
          cases h3 : Spec.readInt 1 x.2 with
          | none => rw [h3] at h; cases h
          | some y =>
          rw [h3] at h
          simp only [Option.bind_some] at h
          cases h4 : Spec.readInt 4 y.2 with
          | none => rw [h4] at h; cases h
          | some z =>
          rw [h4] at h
          simp only [Option.bind_some] at h
          by_cases hn : n = 0
          · rw [if_pos hn] at h
            by_cases he : z.2.isEmpty
            · rw [if_pos he] at h
              cases h; rfl
            · rw [if_neg he] at h
              cases h
          · rw [if_neg hn] at h
            cases h5 : Spec.readN ((n + 7) / 8) z.2 with
            | none => rw [h5] at h; cases h
            | some w =>
            rw [h5] at h
            simp only [Option.bind_some] at h
            cases h6 : Spec.readInt 1 w.2 with
            | none => rw [h6] at h; cases h
            | some w1 =>
            rw [h6] at h
            simp only [Option.bind_some] at h
            by_cases hb1 : w1.1 ≠ 1
            · rw [if_pos hb1] at h; cases h
            rw [if_neg hb1] at h
            cases h7 : Spec.readTypes n w1.2 with
            | none => rw [h7] at h; cases h
            | some w2 =>
            rw [h7] at h
            simp only [Option.bind_some] at h
            cases h8 : Spec.readParams w.1 long 0 w2.1 w2.2 with
            | none => rw [h8] at h; cases h
            | some w3 =>
            rw [h8] at h
            simp only [Option.bind_some] at h
            by_cases he : w3.2.isEmpty
            · rw [if_pos he] at h
              cases h; rfl
            · rw [if_neg he] at h
              cases h
        rw [this, h2]
    · rw [if_pos hb] at h
      cases h

/-- Preparing and executing a statement against the server: what it does, what it answers, and that
the connector, fed with its bytes, sends exactly the commands and is about to read the answer. -/
theorem statement_talk (S : SqlServer) (st : SqlState) (text : Str) (ts : List Spec.Tok) (p : Prep)
    (vs : List Value) (ht : Spec.tokens text = some ts) (hp : Spec.parsePrep ts = some p)
    (hm : p.marks = Spec.placeholders ts) (hc : p.columns.Nodup) (hl : vs.length = p.marks)
    (hn : p.marks < 2 ^ 16) (hb : ∀ b, .bytes b ∈ vs → b.length < 2 ^ 64) :
    ∃ cmds sent st', S.talk st cmds = some (st', sent, Spec.commands cmds) ∧
      st'.rows = (S.run st.rows p (vs.map Spec.meaning)).1 ∧
      ∀ (c : Conn) (r : List Rx), c.pendingResult = false → c.wfaults = [] → c.rx = rxOf sent ++ r →
        ∃ pr c1 q, prepareStatement text c = (.ok pr, c1) ∧ pr.params = vs.length ∧
          sendExecute pr.id vs c1 = (.ok (), { c with
            rx := rxOf (Spec.frames q (S.run st.rows p (vs.map Spec.meaning)).2) ++ r
            tx := c.tx ++ Spec.commands cmds
            seqId := q }) := by
  let id := S.nextStmt st
  let st1 : SqlState :=
    { rows := st.rows
      prepared := fun i => if i = id.toNat then some p else st.prepared i
      long := fun i => if i = id.toNat then fun _ => none else st.long i }
  obtain ⟨req, hreq⟩ : ∃ req, ExecRequest.new (ε := Error) id vs = .ok req := by
    obtain ⟨bm, hreq, -⟩ := ExecRequest.new_spec (ε := Error) id vs
    exact ⟨_, hreq⟩
  obtain ⟨long, l', e1, e2, e3⟩ := execCmds_read id vs req st1.long hreq (by omega) hb
    (fun j => by simp [st1])
  have r1 : S.react st (0x16 :: utf8 text) = some (st1,
      Spec.stmtOk id.toNat 0 p.marks 0 :: List.replicate p.marks S.paramDef) := by
    rw [react, if_pos rfl, fromUtf8_utf8]
    simp only [Option.bind_eq_bind, Option.bind_some]
    rw [ht]
    simp only [Option.bind_some]
    rw [hp]
    simp only [Option.bind_some]
    rw [if_pos ⟨hm, hn, hc⟩]
  obtain ⟨bs, rr, e4, e5⟩ := readExecute_head e3
  let st2 : SqlState := { st1 with long := l' }
  have r3 : S.react st2 req.serialize = some ({ st2 with
      rows := (S.run st.rows p (vs.map Spec.meaning)).1
      long := fun i => if i = id.toNat then fun _ => none else l' i },
      [(S.run st.rows p (vs.map Spec.meaning)).2]) := by
    rw [e4]
    rw [react, if_neg (by decide), if_neg (by decide), if_pos rfl, e5]
    simp only [Option.bind_eq_bind, Option.bind_some]
    have : st2.prepared id.toNat = some p := by simp [st2, st1]
    rw [this]
    simp only [Option.bind_some]
    rw [← e4, ← hl]
    have : st2.long id.toNat = l' id.toNat := rfl
    rw [this, e3]
    rfl
  refine ⟨(0x16 :: utf8 text) :: execCmds id vs req,
    Spec.framesAll (UInt8.ofNat (Spec.frameCount (0x16 :: utf8 text)))
      (Spec.stmtOk id.toNat 0 p.marks 0 :: List.replicate p.marks S.paramDef) ++
      Spec.framesAll (UInt8.ofNat (Spec.frameCount req.serialize))
        [(S.run st.rows p (vs.map Spec.meaning)).2],
    { st2 with
      rows := (S.run st.rows p (vs.map Spec.meaning)).1
      long := fun i => if i = id.toNat then fun _ => none else l' i }, ?_, ?_, ?_⟩
  · have := talk_append S st [0x16 :: utf8 text] (execCmds id vs req)
    rw [List.singleton_append] at this
    rw [this, talk_one S st st1 _ _ r1, Option.bind_some, e1, talk_append, talk_long S st1 long l' e2,
      Option.bind_some, talk_one S st2 _ _ _ r3]
    simp [Spec.commands]
  · rfl
  · intro c r hcp hcw hrx
    rw [rxOf_append, List.append_assoc] at hrx
    obtain ⟨q, h1⟩ := C18_prepare text c id 0 (UInt16.ofNat p.marks) 0 (List.replicate p.marks S.paramDef)
      _ hcp hcw (by
        rw [List.length_replicate, UInt16.toNat_ofNat_of_lt' hn]; rfl) (by
        rw [UInt16.toNat_ofNat_of_lt' hn]; exact hrx)
    obtain ⟨req2, h2, h3⟩ := sendExecute_clean id vs (hp := hcp) (hw := hcw) (c := { c with
      rx := rxOf (Spec.framesAll (UInt8.ofNat (Spec.frameCount req.serialize))
        [(S.run st.rows p (vs.map Spec.meaning)).2]) ++ r
      tx := c.tx ++ Spec.frames 0 (0x16 :: utf8 text)
      seqId := q })
    rw [hreq] at h2
    cases h2
    refine ⟨_, _, UInt8.ofNat (Spec.frameCount req.serialize), h1, ?_, ?_⟩
    · rw [hl]; exact UInt16.toNat_ofNat_of_lt' hn
    · refine Eq.trans h3 ?_
      simp [Spec.framesAll, Spec.commands]

/-! ### the connection -/

/-- a connection at rest, whose bytes to come are these; the settings are those negotiated with `S`. -/
structure AtRest (S : SqlServer) (c : Conn) (rx : List Rx) : Prop where
  pending : c.pendingResult = false
  faults : c.wfaults = []
  track : hasFlag32 c.data.capabilities Cap.SESSION_TRACK = false
  p41 : hasFlag32 c.data.capabilities Cap.PROTOCOL_41 = S.protocol41
  rx : c.rx = rx

theorem AtRest.next {S : SqlServer} {c : Conn} {rx : List Rx} (h : AtRest S c rx) (rx' : List Rx)
    (tx : Bytes) (q : UInt8) : AtRest S { c with rx := rx', tx := tx, seqId := q } rx' :=
  ⟨h.pending, h.faults, h.track, h.p41, rfl⟩

/-- executing with a row that is accepted. -/
theorem execute_ok {S : SqlServer} {c1 c : Conn} {pr : Prepared} {vs : List Value} {q : UInt8} {r : List Rx}
    {tx : Bytes} {a id : UInt64} (hm : (utf8 S.message).length < 2 ^ 64)
    (ht : hasFlag32 c.data.capabilities Cap.SESSION_TRACK = false)
    (hl : pr.params = vs.length)
    (h : sendExecute pr.id vs c1 = (.ok (), { c with
      rx := rxOf (Spec.frames q (S.okAnswer a id)) ++ r, tx := tx, seqId := q })) :
    ∃ q', pr.execute vs c1 = (.ok (okOf a id S.status S.warnings S.message), { c with
      rx := r, tx := tx, seqId := q' }) := by
  unfold Prepared.execute
  rw [if_neg (by simp [hl]), SM.bind_of_ok h]
  obtain ⟨q', h1⟩ := readResponse_ok { c with
    rx := rxOf (Spec.frames q (S.okAnswer a id)) ++ r, tx := tx, seqId := q } r a id S.status S.warnings
      S.message hm (Or.inl ht) rfl
  rw [SM.bind_of_ok h1]
  exact ⟨q', rfl⟩

/-- executing with a row that is refused. -/
theorem execute_refused {S : SqlServer} {c1 c : Conn} {pr : Prepared} {vs : List Value} {q : UInt8}
    {r : List Rx} {tx : Bytes} {e : Spec.SqlError} (hs : (utf8 e.state).length = 5) (hc : e.code ≠ 0xFFFF)
    (h41 : hasFlag32 c.data.capabilities Cap.PROTOCOL_41 = S.protocol41)
    (hl : pr.params = vs.length)
    (h : sendExecute pr.id vs c1 = (.ok (), { c with
      rx := rxOf (Spec.frames q (S.errAnswer e)) ++ r, tx := tx, seqId := q })) :
    ∃ q', pr.execute vs c1 = (.err (.server (.error e.code
        (if S.protocol41 then some (utf8 e.state) else none) e.msg)), { c with
      rx := r, tx := tx, seqId := q' }) := by
  unfold Prepared.execute
  rw [if_neg (by simp [hl]), SM.bind_of_ok h]
  obtain ⟨q', h1⟩ := readResponse_err { c with
    rx := rxOf (Spec.frames q (S.errAnswer e)) ++ r, tx := tx, seqId := q } r e.code e.state e.msg hs
      (Or.inl hc) (by dsimp only; rw [h41]; rfl)
  rw [SM.bind_of_ok h1]
  dsimp only
  rw [h41]
  exact ⟨q', rfl⟩

end Verif

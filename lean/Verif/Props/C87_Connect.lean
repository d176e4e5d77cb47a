import Verif.Spec.Connecting
import Verif.Props.C77_AnyState
import Verif.Props.C78_LoginStreams
import Verif.Props.C86_Torn

/-!
# C87: which conversations make a connection

The whole of `connect` on a stream that has been opened, whatever the server sends: the login, and the question for the
limit of packets that follows it.
-/

namespace Verif

open Spec (Turn Talk Took Wrote)

/-! ### the row with the limit -/

theorem limitOf_ok (cols : List Column) (vs : List Value) (h : vs.length = cols.length) (lim : Option Nat) :
    limitOf cols vs = .ok lim ↔ Spec.Limit (cols.map (·.name)) vs lim := by
  unfold limitOf
  dsimp only
  have hlt := List.findIdx_lt_length (p := fun col : Column => col.name == "@@max_allowed_packet".toList) (xs := cols)
  have hbefore : ∀ (j : Nat) (hj : j < cols.length),
      j < cols.findIdx (fun col : Column => col.name == "@@max_allowed_packet".toList) →
      cols[j].name ≠ "@@max_allowed_packet".toList := by
    intro j hj hlt'
    have := List.not_of_lt_findIdx (p := fun col : Column => col.name == "@@max_allowed_packet".toList) hlt'
    simpa using this
  generalize hi : cols.findIdx (fun col : Column => col.name == "@@max_allowed_packet".toList) = i at hlt hbefore
  by_cases hl : i < cols.length
  · rw [if_pos hl]
    have hat : (cols.map (·.name))[i]? = some Spec.limitName := by
      have := List.findIdx_getElem (p := fun col : Column => col.name == "@@max_allowed_packet".toList) (xs := cols)
        (w := by rw [hi]; exact hl)
      simp only [hi] at this
      rw [List.getElem?_map, List.getElem?_eq_getElem hl, Option.map_some]
      exact congrArg some (beq_iff_eq.1 this)
    have hno : ∀ j < i, (cols.map (·.name))[j]? ≠ some Spec.limitName := by
      intro j hj e
      have hjl : j < cols.length := by omega
      rw [List.getElem?_map, List.getElem?_eq_getElem hjl, Option.map_some] at e
      injection e with e
      exact hbefore j hjl hj e
    have hv : vs[i]? = some vs[i] := List.getElem?_eq_getElem (by omega)
    have huniq : ∀ {i'}, (cols.map (·.name))[i']? = some Spec.limitName →
        (∀ j < i', (cols.map (·.name))[j]? ≠ some Spec.limitName) → i' = i := by
      intro i' h1 h2
      rcases Nat.lt_trichotomy i' i with h3 | h3 | h3
      · exact absurd h1 (hno _ h3)
      · exact h3
      · exact absurd hat (h2 _ h3)
    constructor
    · intro h1
      rw [hv] at h1
      cases hc : vs[i] <;> rw [hc] at h1 <;> cases h1
      exact .present hat hno (by rw [hv, hc])
    · intro h1
      cases h1 with
      | absent h2 => exact absurd (List.mem_of_getElem? hat) h2
      | present h2 h3 h4 =>
        cases huniq h2 h3
        rw [h4]
  · rw [if_neg hl]
    constructor
    · intro h1
      cases h1
      refine .absent fun hm => ?_
      obtain ⟨col, hc, e⟩ := List.mem_map.1 hm
      exact hl (hlt.2 ⟨col, hc, beq_iff_eq.2 e⟩)
    · intro h1
      cases h1 with
      | absent h2 => rfl
      | present h2 h3 h4 =>
        obtain ⟨col, hc, e⟩ := List.mem_map.1 (List.mem_of_getElem? h2)
        exact absurd (hlt.2 ⟨col, hc, beq_iff_eq.2 e⟩) hl

theorem limitOf_calm (cols : List Column) (vs : List Value) (h : vs.length = cols.length) : limitOf cols vs ≠ .panic := by
  unfold limitOf
  dsimp only
  split
  · rename_i hl
    rw [List.getElem?_eq_getElem (by omega)]
    intro e
    split at e
    · cases e
    · cases e
    · rename_i h1
      cases h1
  · intro e
    cases e

theorem limitOf_local (cols : List Column) (vs : List Value) (e : ErrPacket) : limitOf cols vs ≠ .err (.server e) := by
  unfold limitOf
  dsimp only
  intro h
  split at h
  · split at h <;> cases h
  · cases h

/-! ### the question -/

theorem question_eq : (Command.query.toByte :: utf8 "select @@max_allowed_packet".toList) = Spec.question := by decide

theorem question_sent (c c' : Conn) (hp : c.pendingResult = false) :
    executeCommand .query (utf8 "select @@max_allowed_packet".toList) c = (.ok (), c') ↔ Wrote c Spec.question c' := by
  rw [C77_send, question_eq]
  constructor
  · rintro ⟨c0, ⟨_, rfl⟩ | ⟨h, _⟩, h2⟩
    · exact h2
    · rw [hp] at h; cases h
  · intro h
    exact ⟨c, Or.inl ⟨hp, rfl⟩, h⟩

/-- the first row of an answer. -/
def firstRow (fp : FloatParse) (rs : RSet) : M Unit := do
  let p ← rs.next (textReader fp mkPlain)
  match p.2 with
  | none => pure ()
  | some row => do
    let n ← SM.ofOut (limitOf p.1.columns row)
    storeLimit n

theorem askLimit_eq (fp : FloatParse) :
    askLimit fp = executeCommand .query (utf8 "select @@max_allowed_packet".toList) >>= fun _ =>
      RSet.read >>= firstRow fp := by
  unfold askLimit query
  rw [SM.bind_assoc]
  rfl

theorem storeLimit_eq (lim : Option Nat) (c : Conn) :
    storeLimit lim c = (.ok (), { c with data := { c.data with maxAllowedPacket := lim.getD c.data.maxAllowedPacket } }) := by
  cases lim <;> rfl

theorem rowForm_length {fp : FloatParse} {caps : UInt32} {cols : List Column} {p : Bytes} {vs : List Value}
    (h : Spec.TextRowForm fp caps (cols.map Column.wireType) p vs) : vs.length = cols.length := by
  obtain ⟨_, _, cells, rest, h1, _⟩ := h
  have := textCells_length h1
  simpa using this

theorem settings_ok (fp : FloatParse) (c c' : Conn) (hp : c.pendingResult = false) :
    askLimit fp c = (.ok (), c') ↔ Spec.Asks fp c c' := by
  rw [askLimit_eq, SM.bind_eq_ok]
  constructor
  · rintro ⟨_, c1, h1, h2⟩
    rw [question_sent c c1 hp] at h1
    obtain ⟨rs, c2, h3, h4⟩ := SM.bind_eq_ok.1 h2
    unfold firstRow at h4
    obtain ⟨⟨rs', row⟩, c3, h5, h6⟩ := SM.bind_eq_ok.1 h4
    have hcaps1 : c1.data = c.data := Wrote.data h1
    rcases hrs : rs with ⟨cols, okp⟩
    subst hrs
    cases okp with
    | some ok =>
      rcases C76_head_kinds _ _ _ h3 with h | h
      · cases h
      dsimp only at h
      subst h
      obtain ⟨p, h7, h8⟩ := (C76_head_ok c1 c2 ok.affectedRows ok.lastInsertId ok.status ok.warnings ok.message).1
        ⟨_, ok, h3, rfl, rfl, rfl, rfl, rfl, rfl⟩
      cases h5
      cases h6
      exact .ok h1 h7 h8
    | none =>
      obtain ⟨head, defs, c4, g1, g2, g3, rfl⟩ := (C76_head_rows _ _ _).1 h3
      have hcaps4 : c4.data = c.data := (Took.caps g3).trans hcaps1
      cases row with
      | none =>
        obtain ⟨p, c5, ok, k1, k2, k3, rfl, rfl⟩ := (C76_next_end _ _ _ _ _ rfl).1 h5
        obtain ⟨c6, k6, rfl⟩ := (Took.pend _ _ _ _).1 k1
        cases h6
        simp only [hcaps4] at k2 k3
        obtain ⟨s, w, m, k4⟩ := (endForm_iff c.data.capabilities p).1 ⟨ok, k3⟩
        refine .none (c2 := c6) h1 ?_ ⟨g1, g2⟩ k2 k4
        rw [Took.append]
        exact ⟨c4, g3, k6⟩
      | some row =>
        obtain ⟨rfl, p, k1, k2⟩ := (C76_next_row _ _ _ _ _ _ rfl).1 h5
        obtain ⟨c6, k6, rfl⟩ := (Took.pend _ _ _ _).1 k1
        simp only [hcaps4] at k2
        rw [rowPacket_text] at k2
        dsimp only at h6
        obtain ⟨lim, c7, h7, h8⟩ := SM.bind_eq_ok.1 h6
        cases hlim : limitOf cols row with
        | ok l =>
          rw [hlim] at h7
          cases h7
          rw [storeLimit_eq] at h8
          cases h8
          refine .row (c2 := c6) h1 ?_ ⟨g1, g2⟩ k2 ((limitOf_ok cols row (rowForm_length k2) _).1 hlim)
          rw [Took.append]
          exact ⟨c4, g3, k6⟩
        | err e => rw [hlim] at h7; cases h7
        | panic => rw [hlim] at h7; cases h7
  · intro h
    cases h with
    | @ok c1 _ p a l s w m h1 h2 h3 =>
      refine ⟨(), c1, (question_sent c c1 hp).2 h1, ?_⟩
      obtain ⟨rs, ok, h4, rfl, _⟩ := (C76_head_ok c1 c' a l s w m).2 ⟨p, h2, h3⟩
      rw [SM.bind_of_ok h4]
      rfl
    | @none c1 c2 head defs cols p s w m h1 h2 h3 h4 h5 =>
      refine ⟨(), c1, (question_sent c c1 hp).2 h1, ?_⟩
      rw [Took.append] at h2
      obtain ⟨c3, g1, g2⟩ := h2
      have hcaps : c3.data = c.data := (Took.caps g1).trans (Wrote.data h1)
      rw [SM.bind_of_ok ((C76_head_rows _ _ cols).2 ⟨head, defs, c3, h3.1, h3.2, g1, rfl⟩)]
      unfold firstRow
      obtain ⟨ok, k1, _⟩ := (C76_end c.data.capabilities _ _ _ _).2 h5
      rw [SM.bind_of_ok ((C76_next_end (textReader fp mkPlain) { columns := cols, okPacket := none }
        { c3 with pendingResult := true } { c2 with pendingResult := false } _ rfl).2
        ⟨p, { c2 with pendingResult := true }, ok, (Took.pend _ _ _ _).2 ⟨c2, g2, rfl⟩,
          by simp only [hcaps]; exact h4, by simp only [hcaps]; exact k1, rfl, rfl⟩)]
      rfl
    | @row c1 c2 head defs cols p vs lim h1 h2 h3 h4 h5 =>
      refine ⟨(), c1, (question_sent c c1 hp).2 h1, ?_⟩
      rw [Took.append] at h2
      obtain ⟨c3, g1, g2⟩ := h2
      have hcaps : c3.data = c.data := (Took.caps g1).trans (Wrote.data h1)
      rw [SM.bind_of_ok ((C76_head_rows _ _ cols).2 ⟨head, defs, c3, h3.1, h3.2, g1, rfl⟩)]
      unfold firstRow
      rw [SM.bind_of_ok ((C76_next_row (textReader fp mkPlain) { columns := cols, okPacket := none }
        { c3 with pendingResult := true } { c2 with pendingResult := true } _ vs rfl).2
        ⟨rfl, p, (Took.pend _ _ _ _).2 ⟨c2, g2, rfl⟩,
          by simp only [hcaps]; exact (rowPacket_text fp cols _ p vs).2 h4⟩)]
      dsimp only
      have hl := (limitOf_ok cols vs (rowForm_length h4) lim).2 h5
      rw [hl]
      exact storeLimit_eq lim _

theorem Local.firstRow (fp : FloatParse) (rs : RSet) : Local (Verif.firstRow fp rs) := by
  refine Local.bind ?_ fun p => ?_
  · unfold RSet.next
    split
    · exact Local.pure _
    · refine Local.bind Local.readPacket fun p => Local.bind Local.get fun c => Local.bind ?_ fun last => ?_
      · intro c0 c1 e h
        cases p with
        | nil => cases h
        | cons b t =>
          obtain ⟨x, hx⟩ : ∃ x, isLast c.data.capabilities (b :: t) = .ok x := by
            unfold isLast
            dsimp only
            split <;> exact ⟨_, rfl⟩
          rw [hx] at h
          cases h
      · split
        · exact Local.bind (Local.liftP _) fun _ => Local.bind (Local.modify _) fun _ => Local.pure _
        · exact Local.bind (Local.liftP _) fun _ => Local.bind (Local.liftParse _) fun _ => Local.pure _
  · split
    · exact Local.pure _
    · refine Local.bind ?_ fun n => ?_
      · intro c0 c1 e h
        cases hl : limitOf p.1.columns _ with
        | ok a => rw [hl] at h; cases h
        | panic => rw [hl] at h; cases h
        | err x =>
          rw [hl] at h
          cases h
          exact limitOf_local _ _ _ hl
      · intro c0 c1 e h
        rw [storeLimit_eq] at h
        cases h

theorem settings_refused (fp : FloatParse) (c c' : Conn) (hp : c.pendingResult = false) (code : UInt16)
    (state : Option Bytes) (msg : Str) :
    askLimit fp c = (.err (.server (.error code state msg)), c') ↔
      ∃ c1 p, Wrote c Spec.question c1 ∧ Took c1 [p] c' ∧ Spec.ErrForm c.data.capabilities p code state msg := by
  rw [askLimit_eq, Local.server (Local.executeCommand _ _)]
  constructor
  · rintro ⟨_, c1, h1, h2⟩
    rw [question_sent c c1 hp] at h1
    rcases bind_err_cases h2 with h3 | ⟨rs, c2, _, h4⟩
    · obtain ⟨p, h4, h5⟩ := (C76_head_error _ _ _ _ _).1 h3
      rw [Wrote.data h1] at h5
      exact ⟨c1, p, h1, h4, h5⟩
    · exact absurd h4 (Local.firstRow fp rs _ _ _)
  · rintro ⟨c1, p, h1, h2, h3⟩
    rw [← Wrote.data h1] at h3
    exact ⟨(), c1, (question_sent c c1 hp).2 h1, SM.bind_of_err ((C76_head_error _ _ _ _ _).2 ⟨p, h2, h3⟩)⟩

theorem settings_panic (fp : FloatParse) (c c' : Conn) (hp : c.pendingResult = false) :
    askLimit fp c = (.panic, c') ↔ Spec.AnswerPanics fp c c' := by
  rw [askLimit_eq, panic_bind, C77_send_panic]
  constructor
  · rintro (⟨h, _⟩ | ⟨_, c1, h1, h2⟩)
    · rw [hp] at h; cases h
    rw [question_sent c c1 hp] at h1
    rw [panic_bind] at h2
    rcases h2 with h2 | ⟨rs, c2, h2, h3⟩
    · exact .head h1 ((C76_head_panic _ _).1 h2)
    unfold firstRow at h3
    rw [panic_bind] at h3
    rcases hrs : rs with ⟨cols, okp⟩
    subst hrs
    cases okp with
    | some ok => rcases h3 with h3 | ⟨x, c3, h3, h4⟩ <;> cases h3; cases h4
    | none =>
      obtain ⟨head, defs, c4, g1, g2, g3, rfl⟩ := (C76_head_rows _ _ _).1 h2
      have hcaps4 : c4.data = c.data := (Took.caps g3).trans (Wrote.data h1)
      rcases h3 with h3 | ⟨⟨rs', row⟩, c3, h3, h4⟩
      · obtain ⟨p, k1, k2⟩ := (C76_next_panic _ _ _ _ rfl).1 h3
        obtain ⟨c6, k6, rfl⟩ := (Took.pend _ _ _ _).1 k1
        simp only [hcaps4] at k2
        rw [badPacket_text] at k2
        refine .row (c2 := c6) h1 ?_ ⟨g1, g2⟩ k2
        rw [Took.append]
        exact ⟨c4, g3, k6⟩
      · exfalso
        cases row with
        | none => cases h4
        | some row =>
          obtain ⟨rfl, p, k1, k2⟩ := (C76_next_row _ _ _ _ _ _ rfl).1 h3
          rw [rowPacket_text] at k2
          have hc := limitOf_calm cols row (rowForm_length k2)
          dsimp only at h4
          cases hl : limitOf cols row with
          | ok l =>
            rw [hl] at h4
            change storeLimit l c3 = _ at h4
            rw [storeLimit_eq] at h4
            cases h4
          | err e => rw [hl] at h4; cases h4
          | panic => exact hc hl
  · intro h
    refine Or.inr ?_
    cases h with
    | @head c1 _ h1 h2 =>
      exact ⟨(), c1, (question_sent c c1 hp).2 h1, SM.bind_of_panic ((C76_head_panic _ _).2 h2)⟩
    | @row c1 c2 head defs cols p h1 h2 h3 h4 =>
      refine ⟨(), c1, (question_sent c c1 hp).2 h1, ?_⟩
      rw [Took.append] at h2
      obtain ⟨c3, g1, g2⟩ := h2
      have hcaps : c3.data = c.data := (Took.caps g1).trans (Wrote.data h1)
      rw [SM.bind_of_ok ((C76_head_rows _ _ cols).2 ⟨head, defs, c3, h3.1, h3.2, g1, rfl⟩)]
      unfold firstRow
      refine SM.bind_of_panic ((C76_next_panic (textReader fp mkPlain) { columns := cols, okPacket := none }
        { c3 with pendingResult := true } _ rfl).2 ⟨p, (Took.pend _ _ _ _).2 ⟨c2, g2, rfl⟩, ?_⟩)
      simp only [hcaps]
      exact (badPacket_text fp cols _ p).2 h4

/-! ### the whole -/

/-- the login of these turns succeeds; `c'` is `c` after that. -/
def LoggedIn (cr : Crypto) (alnum : Char → Bool) (c c' : Conn) : Prop :=
  ∃ g d0 w d1 f d2 c1, Talk c (.got g :: .put (Spec.request cr.toHashes c.options d0) :: w ++ f) c1 ∧
    Spec.Greets alnum c.options g d0 ∧ (Spec.going c.options d0 = .clear → c.options.allowCleartext = true) ∧
    Spec.Waits cr.toHashes c.options d0 w d1 ∧ Spec.Accepts cr c.options d1 f d2 ∧ c' = { c1 with data := d2 }

theorem LoggedIn.keeps {cr : Crypto} {alnum : Char → Bool} {c c' : Conn} (h : LoggedIn cr alnum c c') :
    c'.options = c.options ∧ c'.pendingResult = c.pendingResult := by
  obtain ⟨g, d0, w, d1, f, d2, c1, ht, _, _, _, _, rfl⟩ := h
  exact (Talk.keeps ht).2

/-- **C87**: a connection is made exactly if the login is accepted and, unless the user has set a limit, the question
for it is answered by an OK packet, a result without rows or a row; the limit is that of the row. -/
theorem C87_connected (cr : Crypto) (alnum : Char → Bool) (fp : FloatParse) (c c' : Conn) (hp : c.pendingResult = false) :
    connect cr alnum fp c = (.ok (), c') ↔
      ∃ c1, LoggedIn cr alnum c c1 ∧
        ((c.options.maxAllowedPacket ≠ none ∧ c' = c1) ∨ (c.options.maxAllowedPacket = none ∧ Spec.Asks fp c1 c')) := by
  unfold connect
  rw [SM.bind_eq_ok]
  have step : ∀ c1, LoggedIn cr alnum c c1 → (readSettings fp c1 = (.ok (), c') ↔
      ((c.options.maxAllowedPacket ≠ none ∧ c' = c1) ∨ (c.options.maxAllowedPacket = none ∧ Spec.Asks fp c1 c'))) := by
    intro c1 h
    obtain ⟨ho, hq⟩ := h.keeps
    unfold readSettings
    rw [SM.get_bind_apply, ho]
    cases c.options.maxAllowedPacket with
    | none =>
      dsimp only [Option.isNone]
      rw [if_pos rfl, settings_ok fp c1 c' (hq.trans hp)]
      simp
    | some k =>
      dsimp only [Option.isNone]
      rw [if_neg (by simp)]
      constructor
      · intro h; cases h; exact Or.inl ⟨by simp, rfl⟩
      · rintro (⟨_, rfl⟩ | ⟨h, _⟩)
        · rfl
        · cases h
  constructor
  · rintro ⟨_, c1, h1, h2⟩
    have h3 : LoggedIn cr alnum c c1 := (C78_accepted cr alnum c c1).1 h1
    exact ⟨c1, h3, (step c1 h3).1 h2⟩
  · rintro ⟨c1, h3, h2⟩
    exact ⟨(), c1, (C78_accepted cr alnum c c1).2 h3, (step c1 h3).2 h2⟩

/-- an error of the server is reported exactly if it refuses the login or the question. -/
theorem C87_refused (cr : Crypto) (alnum : Char → Bool) (fp : FloatParse) (c c' : Conn) (hp : c.pendingResult = false)
    (code : UInt16) (state : Option Bytes) (msg : Str) :
    connect cr alnum fp c = (.err (.server (.error code state msg)), c') ↔
      (∃ g d0 w d1 f d2 p c1, Talk c (.got g :: .put (Spec.request cr.toHashes c.options d0) :: w ++ f) c1 ∧
        Spec.Greets alnum c.options g d0 ∧ (Spec.going c.options d0 = .clear → c.options.allowCleartext = true) ∧
        Spec.Waits cr.toHashes c.options d0 w d1 ∧ Spec.Refuses cr c.options d1 p f d2 ∧
        Spec.ErrForm d0.capabilities p code state msg ∧ c' = { c1 with data := d2 }) ∨
      (c.options.maxAllowedPacket = none ∧ ∃ c1 c2 p, LoggedIn cr alnum c c1 ∧ Wrote c1 Spec.question c2 ∧
        Took c2 [p] c' ∧ Spec.ErrForm c1.data.capabilities p code state msg) := by
  unfold connect
  rw [← C78_refused cr alnum c c' code state msg]
  have step : ∀ c1, LoggedIn cr alnum c c1 → (readSettings fp c1 = (.err (.server (.error code state msg)), c') ↔
      c.options.maxAllowedPacket = none ∧ ∃ c2 p, Wrote c1 Spec.question c2 ∧
        Took c2 [p] c' ∧ Spec.ErrForm c1.data.capabilities p code state msg) := by
    intro c1 h
    obtain ⟨ho, hq⟩ := h.keeps
    unfold readSettings
    rw [SM.get_bind_apply, ho]
    cases c.options.maxAllowedPacket with
    | none =>
      dsimp only [Option.isNone]
      rw [if_pos rfl, settings_refused fp c1 c' (hq.trans hp)]
      simp
    | some k =>
      dsimp only [Option.isNone]
      rw [if_neg (by simp)]
      constructor
      · intro h; cases h
      · rintro ⟨h, _⟩
        cases h
  constructor
  · intro h
    rcases bind_err_cases h with h1 | ⟨_, c1, h1, h2⟩
    · exact Or.inl h1
    · have h3 : LoggedIn cr alnum c c1 := (C78_accepted cr alnum c c1).1 h1
      obtain ⟨h4, c2, p, h5⟩ := (step c1 h3).1 h2
      exact Or.inr ⟨h4, c1, c2, p, h3, h5⟩
  · rintro (h1 | ⟨h4, c1, c2, p, h3, h5⟩)
    · exact SM.bind_of_err h1
    · rw [SM.bind_of_ok ((C78_accepted cr alnum c c1).2 h3)]
      exact (step c1 h3).2 ⟨h4, c2, p, h5⟩

/-- connecting panics exactly if the login does or the answer to the question cannot be taken. -/
theorem C87_panic (cr : Crypto) (alnum : Char → Bool) (fp : FloatParse) (c c' : Conn) (hp : c.pendingResult = false) :
    connect cr alnum fp c = (.panic, c') ↔
      (∃ g, Talk c [.got g] c' ∧ ∀ d, ¬ Spec.Greets alnum c.options g d) ∨
      (∃ g d0 w d1 u f d2 c1, Talk c (.got g :: .put (Spec.request cr.toHashes c.options d0) :: w ++
          .got (1 :: 4 :: u) :: f) c1 ∧
        Spec.Greets alnum c.options g d0 ∧ (Spec.going c.options d0 = .clear → c.options.allowCleartext = true) ∧
        Spec.Waits cr.toHashes c.options d0 w d1 ∧ Spec.going c.options d1 = .sha2 ∧
        Spec.Breaks cr c.options d1 f d2 ∧ c' = { c1 with data := d2 }) ∨
      (c.options.maxAllowedPacket = none ∧ ∃ c1, LoggedIn cr alnum c c1 ∧ Spec.AnswerPanics fp c1 c') := by
  unfold connect
  rw [panic_bind, C78_panic, or_assoc]
  refine or_congr Iff.rfl (or_congr Iff.rfl ?_)
  have step : ∀ c1, LoggedIn cr alnum c c1 → (readSettings fp c1 = (.panic, c') ↔
      c.options.maxAllowedPacket = none ∧ Spec.AnswerPanics fp c1 c') := by
    intro c1 h
    obtain ⟨ho, hq⟩ := h.keeps
    unfold readSettings
    rw [SM.get_bind_apply, ho]
    cases c.options.maxAllowedPacket with
    | none =>
      dsimp only [Option.isNone]
      rw [if_pos rfl, settings_panic fp c1 c' (hq.trans hp)]
      simp
    | some k =>
      dsimp only [Option.isNone]
      rw [if_neg (by simp)]
      constructor
      · intro h; cases h
      · rintro ⟨h, _⟩
        cases h
  constructor
  · rintro ⟨_, c1, h1, h2⟩
    have h3 : LoggedIn cr alnum c c1 := (C78_accepted cr alnum c c1).1 h1
    obtain ⟨h4, h5⟩ := (step c1 h3).1 h2
    exact ⟨h4, c1, h3, h5⟩
  · rintro ⟨h4, c1, h3, h5⟩
    exact ⟨(), c1, (C78_accepted cr alnum c c1).2 h3, (step c1 h3).2 ⟨h4, h5⟩⟩

namespace C87ex

/-- connect to a server that accepts at once and answers the question with these packets: the outcome, the limit,
whether a result is left, and how much of the stream. -/
def run (o : Options) (ps : List Bytes) : Out Error Unit × Nat × Bool × Nat :=
  let r := connect C28.crypto C28.asciiAlnum C76ex.fp
    (Conn.initial o (rxOf (Spec.frames 0 C78ex.greeting ++ Spec.frames 2 [0] ++ Spec.framesAll 1 ps)) [])
  (r.1, r.2.data.maxAllowedPacket, r.2.pendingResult, r.2.rx.length)

def desc (name : String) (flags : Nat) : Spec.ColDesc :=
  { db := [], table := [], orgTable := [], name := name.toList, orgName := [],
    charset := 63, length := 21, code := 8, flags := flags, decimals := 0 }

def free : Options := { C28.opts with maxAllowedPacket := none }

end C87ex

open C87ex in
/-- the limit of the server is taken, or of the first of two columns of that name; the end of the answer is left; without
that column, without rows and without a result the default stays; a signed column is an error of the client, a refusal one
of the server; too many columns are a panic; with a limit of the user nothing is asked. -/
theorem C87_example :
    run free (Spec.resultSet [desc "@@max_allowed_packet" 160] [Spec.lenencStr (Spec.dec 67108864)] 2 0) =
      (.ok (), 67108864, true, 11) ∧
    run free (Spec.resultSet [desc "x" 128, desc "@@max_allowed_packet" 160, desc "@@max_allowed_packet" 160]
      [Spec.lenencStr (Spec.dec 1) ++ Spec.lenencStr (Spec.dec 2) ++ Spec.lenencStr (Spec.dec 3)] 2 0) =
      (.ok (), 2, true, 11) ∧
    run free (Spec.resultSet [desc "limit" 160] [Spec.lenencStr (Spec.dec 5)] 2 0) = (.ok (), 4194304, true, 11) ∧
    run free (Spec.resultSet [desc "@@max_allowed_packet" 160] [] 2 0) = (.ok (), 4194304, false, 0) ∧
    run free [Spec.okPacket 0 0 2 0 []] = (.ok (), 4194304, false, 0) ∧
    run free (Spec.resultSet [desc "@@max_allowed_packet" 128] [Spec.lenencStr (Spec.dec 5)] 2 0) =
      (.err (.protocol (.parse (.wrongValue .ulong (.long 5)))), 4194304, true, 11) ∧
    run free [C78ex.denied] =
      (.err (.server (.error 1045 (some (utf8 "28000".toList)) "Access denied".toList)), 4194304, false, 0) ∧
    run free [[0xFE, 0, 0, 0, 0, 0, 0, 0, 0x10]] = (.panic, 4194304, true, 0) ∧
    run { C28.opts with maxAllowedPacket := some 7 } [] = (.ok (), 7, false, 0) := by
  refine ⟨?_, ?_, ?_, ?_, ?_, ?_, ?_, ?_, ?_⟩ <;> decide +kernel

end Verif

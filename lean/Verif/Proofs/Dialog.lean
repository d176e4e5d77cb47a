import Verif.Model.Dialog
import Verif.Spec.Dialog
import Verif.Proofs.Command
import Verif.Proofs.ResultSet
import Verif.Proofs.Migrator

/-! Helper lemmas: histories of commands with their answers. -/

namespace Verif

/-- `c`, having written `tx` and expecting number `s`; the packets `left` come next, then `r`. -/
abbrev Conn.spot (c : Conn) (tx : Bytes) (s : UInt8) (left : List Bytes) (pend : Bool) (r : List Rx) :
    Conn :=
  { c with tx := tx, seqId := s, rx := rxOf (Spec.framesAll s left) ++ r, pendingResult := pend }

/-- `f` gives `b` and moves on to `left'`, whatever has been written and whatever comes later. -/
def Acts {β : Type} (c : Conn) (f : Conn → β × Conn) (s : UInt8) (left : List Bytes) (pend : Bool)
    (b : β) (s' : UInt8) (left' : List Bytes) (pend' : Bool) : Prop :=
  ∀ tx r, f (c.spot tx s left pend r) = (b, c.spot tx s' left' pend' r)

/-- not the end of a result set. -/
def Inner (p : Bytes) : Prop := ∃ b t, p = b :: t ∧ (b = 0xFE → 2 ^ 24 ≤ p.length)

/-- what may be left of an answer. -/
def Left (left : List Bytes) (pend : Bool) : Prop :=
  (pend = false ∧ left = []) ∨
  (pend = true ∧ ∃ body status warnings, left = body ++ [Spec.terminator status warnings] ∧
    ∀ p ∈ body, Inner p)

theorem Inner.of_isRow {p : Bytes} (h : Spec.IsRow p) : Inner p := by
  obtain ⟨b, t, h1, h2, -⟩ := isRow_head h
  exact ⟨b, t, h1, h2⟩

theorem Inner.of_colDef (d : Spec.ColDesc) : Inner (Spec.colDef d) := by
  refine ⟨3, (Spec.colDef d).tail, ?_, fun h => absurd h (by decide)⟩
  have e : Spec.lenencStr (utf8 "def".toList) = [3, 100, 101, 102] := by decide +kernel
  unfold Spec.colDef
  rw [e]
  rfl

theorem isLast_inner (caps : UInt32) {p : Bytes} (h : Inner p) : isLast caps p = .ok false := by
  obtain ⟨b, r, rfl, h1⟩ := h
  rw [isLast_cons]
  by_cases hb : b = 0xFE
  · have h2 := h1 hb
    have e1 : decide ((b :: r).length < MAX_PAYLOAD_LEN) = false := by
      rw [decide_eq_false_iff_not]; unfold MAX_PAYLOAD_LEN; omega
    have e2 : decide ((b :: r).length < 8) = false := by
      rw [decide_eq_false_iff_not]; omega
    rw [e1, e2]
    simp
  · have : (b == 0xFE) = false := by simpa using hb
    rw [this]
    simp

theorem Acts.readPacket (c : Conn) (s : UInt8) (p : Bytes) (ps : List Bytes) (pend : Bool) :
    Acts c readPacket s (p :: ps) pend (.ok p) (s + UInt8.ofNat (Spec.frameCount p)) ps pend :=
  fun tx r => readPacket_feed { c with tx := tx, pendingResult := pend } s p ps r

theorem Acts.bind {α β : Type} {c : Conn} {m : M α} {k : α → M β} {s s1 s2 : UInt8}
    {left left1 left2 : List Bytes} {p p1 p2 : Bool} {a : α} {b : Out Error β}
    (h1 : Acts c m s left p (.ok a) s1 left1 p1) (h2 : Acts c (k a) s1 left1 p1 b s2 left2 p2) :
    Acts c (m >>= k) s left p b s2 left2 p2 :=
  fun tx r => by rw [SM.bind_of_ok (h1 tx r)]; exact h2 tx r

theorem Acts.bind_err {α β : Type} {c : Conn} {m : M α} {k : α → M β} {s s1 : UInt8}
    {left left1 : List Bytes} {p p1 : Bool} {e : Error}
    (h1 : Acts c m s left p (.err e) s1 left1 p1) :
    Acts c (m >>= k) s left p (.err e) s1 left1 p1 :=
  fun tx r => by rw [SM.bind_of_err (h1 tx r)]

theorem Acts.bind_panic {α β : Type} {c : Conn} {m : M α} {k : α → M β} {s s1 : UInt8}
    {left left1 : List Bytes} {p p1 : Bool}
    (h1 : Acts c m s left p .panic s1 left1 p1) :
    Acts c (m >>= k) s left p .panic s1 left1 p1 :=
  fun tx r => by rw [SM.bind_of_panic (h1 tx r)]

theorem Acts.get {β : Type} {c : Conn} {k : Conn → M β} {s s1 : UInt8} {left left1 : List Bytes}
    {p p1 : Bool} {b : Out Error β}
    (h : ∀ tx r, k (c.spot tx s left p r) (c.spot tx s left p r) = (b, c.spot tx s1 left1 p1 r)) :
    Acts c (SM.get >>= k) s left p b s1 left1 p1 := h

theorem Acts.pure {α : Type} (c : Conn) (a : α) (s : UInt8) (left : List Bytes) (p : Bool) :
    Acts c (pure a : M α) s left p (.ok a) s left p := fun _ _ => rfl

theorem Acts.ofOut {α : Type} (c : Conn) (x : Out Error α) (s : UInt8) (left : List Bytes) (p : Bool) :
    Acts c (SM.ofOut x) s left p x s left p := fun _ _ => rfl

/-- a result set and its connection: as long as the end was not seen, rows are outstanding. -/
def Good (rs : RSet) (left : List Bytes) (pend : Bool) : Prop :=
  Left left pend ∧ (rs.okPacket = none → pend = true)

/-- what `next` can give. -/
inductive NextCase {R : Type} (rs : RSet) (m n : Nat) : Out Error (RSet × Option R) → Prop
  | ended {rs' : RSet} (h : rs'.okPacket ≠ none) : NextCase rs m n (.ok (rs', none))
  | row {x : R} (h : m < n) : NextCase rs m n (.ok (rs, some x))
  | err {e : Error} (h : m < n) : NextCase rs m n (.err e)
  | panic (h : m < n) : NextCase rs m n .panic

theorem next_acts {R : Type} (c : Conn) (rd : RowReader R) (rs : RSet) (s : UInt8)
    (left : List Bytes) (pend : Bool) (h : Good rs left pend) :
    ∃ b s' left' pend', Acts c (rs.next rd) s left pend b s' left' pend' ∧
      Good (rsAfter rs b) left' pend' ∧ NextCase rs left'.length left.length b := by
  by_cases hok : rs.okPacket = none
  · have hp := h.2 hok
    subst hp
    obtain ⟨⟨h1, -⟩ | ⟨-, body, st, w, rfl, hb⟩, -⟩ := h
    · cases h1
    · cases body with
      | nil =>
        refine ⟨.ok ({ rs with okPacket := some (eofSeen st w) }, none), s + 1, [], false, ?_, ?_, ?_⟩
        · intro tx r
          exact next_term rd rs { c with tx := tx, pendingResult := true } s st w [] r hok
        · exact ⟨Or.inl ⟨rfl, rfl⟩, fun h => by cases h⟩
        · exact .ended (by simp)
      | cons p body =>
        have hi : Inner p := hb p (by simp)
        have hl : Left (body ++ [Spec.terminator st w]) true :=
          Or.inr ⟨rfl, body, st, w, rfl, fun q hq => hb q (by simp [hq])⟩
        have key : Acts c (rs.next rd) s (p :: body ++ [Spec.terminator st w]) true
            ((rd.row p rs.columns).mapErr .protocol >>= fun row =>
              ((rd.build rs.columns row).mapErr fun e => .protocol (.parse e)) >>= fun x =>
                .ok (rs, some x))
            (s + UInt8.ofNat (Spec.frameCount p)) (body ++ [Spec.terminator st w]) true := by
          intro tx r
          unfold RSet.next
          rw [List.cons_append, hok, if_neg (by simp),
            SM.bind_of_ok (Acts.readPacket c s p _ true tx r),
            SM.get_bind_apply, isLast_inner _ hi, SM.ofOut_ok_bind_apply, if_neg (by simp)]
          unfold liftP liftParse
          cases rd.row p rs.columns with
          | err e => rfl
          | panic => rfl
          | ok row =>
            simp only [Out.mapErr_ok, SM.ofOut_ok_bind_apply, Out.ok_bind]
            cases rd.build rs.columns row <;> rfl
        refine ⟨_, _, _, _, key, ?_, ?_⟩
        · cases rd.row p rs.columns with
          | err e => exact ⟨hl, fun _ => rfl⟩
          | panic => exact ⟨hl, fun _ => rfl⟩
          | ok row =>
            simp only [Out.mapErr_ok, Out.ok_bind]
            cases rd.build rs.columns row <;> exact ⟨hl, fun _ => rfl⟩
        · have hlt : (body ++ [Spec.terminator st w]).length
              < (p :: body ++ [Spec.terminator st w]).length := by simp
          cases rd.row p rs.columns with
          | err e => exact .err hlt
          | panic => exact .panic hlt
          | ok row =>
            simp only [Out.mapErr_ok, Out.ok_bind]
            cases rd.build rs.columns row with
            | ok x => exact .row hlt
            | err e => exact .err hlt
            | panic => exact .panic hlt
  · exact ⟨.ok (rs, none), s, left, pend, fun tx r => next_done rd rs _ hok, h, .ended hok⟩

theorem collectLoop_acts {R : Type} (c : Conn) (rd : RowReader R) (n : Nat) (rs : RSet) (s : UInt8)
    (left : List Bytes) (pend : Bool) (h : Good rs left pend) (hn : left.length ≤ n) :
    ∃ b s' left' pend', (∀ fuel, n < fuel →
        Acts c (rs.collectLoop rd fuel) s left pend b s' left' pend') ∧
      Good (rsAfter rs b) left' pend' ∧ (∀ x, b = .ok x → x.1.okPacket ≠ none) := by
  induction n generalizing rs s left pend with
  | zero =>
    obtain ⟨b, s', left', pend', h1, h2, h3⟩ := next_acts c rd rs s left pend h
    cases h3 with
    | @ended rs' h4 =>
      refine ⟨.ok (rs', []), s', left', pend', ?_, h2, ?_⟩
      · intro fuel hf
        cases fuel with
        | zero => omega
        | succ fuel =>
          unfold RSet.collectLoop
          exact h1.bind (Acts.pure _ _ _ _ _)
      · intro x hx
        cases hx
        exact h4
    | row h => omega
    | err h => omega
    | panic h => omega
  | succ n ih =>
    obtain ⟨b, s', left', pend', h1, h2, h3⟩ := next_acts c rd rs s left pend h
    cases h3 with
    | @ended rs' h4 =>
      refine ⟨.ok (rs', []), s', left', pend', ?_, h2, ?_⟩
      · intro fuel hf
        cases fuel with
        | zero => omega
        | succ fuel =>
          unfold RSet.collectLoop
          exact h1.bind (Acts.pure _ _ _ _ _)
      · intro x hx
        cases hx
        exact h4
    | @err e hl =>
      refine ⟨.err e, s', left', pend', ?_, h2, fun x hx => by cases hx⟩
      intro fuel hf
      cases fuel with
      | zero => omega
      | succ fuel => unfold RSet.collectLoop; exact h1.bind_err
    | panic hl =>
      refine ⟨.panic, s', left', pend', ?_, h2, fun x hx => by cases hx⟩
      intro fuel hf
      cases fuel with
      | zero => omega
      | succ fuel => unfold RSet.collectLoop; exact h1.bind_panic
    | @row x hl =>
      obtain ⟨b2, s2, left2, pend2, k1, k2, k3⟩ := ih rs s' left' pend' h2 (by omega)
      match b2, k1, k2, k3 with
      | .err e, k1, k2, k3 =>
        refine ⟨.err e, s2, left2, pend2, ?_, k2, fun x hx => by cases hx⟩
        intro fuel hf
        cases fuel with
        | zero => omega
        | succ fuel =>
          unfold RSet.collectLoop
          exact h1.bind (Acts.bind_err (k1 fuel (by omega)))
      | .panic, k1, k2, k3 =>
        refine ⟨.panic, s2, left2, pend2, ?_, k2, fun x hx => by cases hx⟩
        intro fuel hf
        cases fuel with
        | zero => omega
        | succ fuel =>
          unfold RSet.collectLoop
          exact h1.bind (Acts.bind_panic (k1 fuel (by omega)))
      | .ok (rs2, l), k1, k2, k3 =>
        refine ⟨.ok (rs2, x :: l), s2, left2, pend2, ?_, k2, ?_⟩
        · intro fuel hf
          cases fuel with
          | zero => omega
          | succ fuel =>
            unfold RSet.collectLoop
            exact h1.bind (Acts.bind (k1 fuel (by omega)) (Acts.pure _ _ _ _ _))
        · intro y hy
          cases hy
          exact k3 (rs2, l) rfl

theorem collect_acts {R : Type} (c : Conn) (rd : RowReader R) (rs : RSet) (s : UInt8)
    (left : List Bytes) (pend : Bool) (h : Good rs left pend) :
    ∃ b s' left' pend', Acts c (rs.collect rd) s left pend b s' left' pend' ∧
      Good (rsAfter rs b) left' pend' ∧ (∀ x, b = .ok x → x.1.okPacket ≠ none) := by
  obtain ⟨b, s', left', pend', h1, h2, h3⟩ :=
    collectLoop_acts c rd left.length rs s left pend h (Nat.le_refl _)
  refine ⟨b, s', left', pend', ?_, h2, h3⟩
  intro tx r
  unfold RSet.collect
  have := feed_rx_length { c with tx := tx, pendingResult := pend } s left r
  exact h1 _ (Nat.lt_succ_of_le (Nat.le_succ_of_le this)) tx r

theorem one_acts {R : Type} (c : Conn) (rd : RowReader R) (rs : RSet) (s : UInt8)
    (left : List Bytes) (pend : Bool) (h : Good rs left pend) :
    ∃ b s' left' pend', Acts c (takeOne rd rs) s left pend b s' left' pend' ∧
      Good b.2 left' pend' := by
  obtain ⟨b, s1, left1, pend1, h1, h2, h3⟩ := next_acts c rd rs s left pend h
  by_cases hp : b = .panic
  · subst hp
    refine ⟨(.panic, rs), s1, left1, pend1, ?_, h2⟩
    intro tx r
    unfold takeOne
    rw [h1 tx r]
  · obtain ⟨b2, s2, left2, pend2, k1, k2, -⟩ := collect_acts c rd (rsAfter rs b) s1 left1 pend1 h2
    match b2, k1, k2 with
    | .ok (rs2, l), k1, k2 =>
      refine ⟨(b.map' Prod.snd, rs2), s2, left2, pend2, ?_, k2⟩
      intro tx r
      unfold takeOne
      rw [h1 tx r]
      cases b with
      | panic => exact absurd rfl hp
      | ok x => dsimp only; rw [k1 tx r]
      | err e => dsimp only; rw [k1 tx r]
    | .err e, k1, k2 =>
      refine ⟨(.err e, rsAfter rs b), s2, left2, pend2, ?_, k2⟩
      intro tx r
      unfold takeOne
      rw [h1 tx r]
      cases b with
      | panic => exact absurd rfl hp
      | ok x => dsimp only; rw [k1 tx r]
      | err e => dsimp only; rw [k1 tx r]
    | .panic, k1, k2 =>
      refine ⟨(.panic, rsAfter rs b), s2, left2, pend2, ?_, k2⟩
      intro tx r
      unfold takeOne
      rw [h1 tx r]
      cases b with
      | panic => exact absurd rfl hp
      | ok x => dsimp only; rw [k1 tx r]
      | err e => dsimp only; rw [k1 tx r]

theorem finish_acts {R : Type} (c : Conn) (rd : RowReader R) (rs : RSet) (s : UInt8)
    (left : List Bytes) (pend : Bool) (h : Good rs left pend) :
    ∃ b s' left' pend', Acts c (rs.finish rd) s left pend b s' left' pend' ∧ Left left' pend' := by
  unfold RSet.finish
  cases hok : rs.okPacket with
  | some ok => exact ⟨_, _, _, _, Acts.pure _ _ _ _ _, h.1⟩
  | none =>
    obtain ⟨b, s', left', pend', h1, h2, h3⟩ := collect_acts c rd rs s left pend h
    match b, h1, h2, h3 with
    | .ok (rs', l), h1, h2, h3 =>
      have h4 := h3 _ rfl
      dsimp only at h4
      cases ho : rs'.okPacket with
      | none => exact absurd ho h4
      | some ok =>
        refine ⟨.ok ok, s', left', pend', ?_, h2.1⟩
        refine Acts.bind (a := rs') (h1.bind (Acts.pure _ _ _ _ _)) ?_
        rw [ho]
        exact Acts.pure _ _ _ _ _
    | .err e, h1, h2, h3 =>
      exact ⟨.err e, s', left', pend', Acts.bind_err (Acts.bind_err h1), h2.1⟩
    | .panic, h1, h2, h3 =>
      exact ⟨.panic, s', left', pend', Acts.bind_panic (Acts.bind_panic h1), h2.1⟩

theorem take_acts {R : Type} (c : Conn) (rd : RowReader R) (t : Take) (rs : RSet) (s : UInt8)
    (left : List Bytes) (pend : Bool) (h : Good rs left pend) :
    ∃ b s' left' pend', Acts c (t.run rd rs) s left pend b s' left' pend' ∧ Left left' pend' ∧
      (t ≠ .finish → Good b.2 left' pend') := by
  cases t with
  | next =>
    obtain ⟨b, s', left', pend', h1, h2, -⟩ := next_acts c rd rs s left pend h
    refine ⟨(b.map' fun x => .row x.2, rsAfter rs b), s', left', pend', fun tx r => ?_, h2.1,
      fun _ => h2⟩
    unfold Take.run
    simp only [h1 tx r]
  | collect =>
    obtain ⟨b, s', left', pend', h1, h2, -⟩ := collect_acts c rd rs s left pend h
    refine ⟨(b.map' fun x => .rows x.2, rsAfter rs b), s', left', pend', fun tx r => ?_, h2.1,
      fun _ => h2⟩
    unfold Take.run
    simp only [h1 tx r]
  | one =>
    obtain ⟨b, s', left', pend', h1, h2⟩ := one_acts c rd rs s left pend h
    refine ⟨(b.1.map' .row, b.2), s', left', pend', fun tx r => ?_, h2.1, fun _ => h2⟩
    unfold Take.run
    simp only [h1 tx r]
  | finish =>
    obtain ⟨b, s', left', pend', h1, h2⟩ := finish_acts c rd rs s left pend h
    refine ⟨(b.map' .ended, rs), s', left', pend', fun tx r => ?_, h2, fun h => absurd rfl h⟩
    unfold Take.run
    simp only [h1 tx r]

theorem takeAll_acts {R : Type} (c : Conn) (rd : RowReader R) (ts : List Take) (rs : RSet)
    (s : UInt8) (left : List Bytes) (pend : Bool) (h : Good rs left pend) :
    ∃ b s' left' pend', Acts c (takeAll rd ts rs) s left pend b s' left' pend' ∧
      Left left' pend' := by
  induction ts generalizing rs s left pend with
  | nil => exact ⟨[], s, left, pend, fun tx r => by unfold takeAll; rfl, h.1⟩
  | cons t ts ih =>
    obtain ⟨b, s1, left1, pend1, h1, h2, h3⟩ := take_acts c rd t rs s left pend h
    by_cases ht : t = .finish
    · subst ht
      refine ⟨[b.1], s1, left1, pend1, fun tx r => ?_, h2⟩
      unfold takeAll
      simp only [h1 tx r]
    · obtain ⟨b2, s2, left2, pend2, k1, k2⟩ := ih b.2 s1 left1 pend1 (h3 ht)
      refine ⟨b.1 :: b2, s2, left2, pend2, fun tx r => ?_, k2⟩
      cases t with
      | finish => exact absurd rfl ht
      | next => simp only [takeAll, h1 tx r, k1 tx r]
      | collect => simp only [takeAll, h1 tx r, k1 tx r]
      | one => simp only [takeAll, h1 tx r, k1 tx r]

/-! ### sending a command -/

/-- discarding what is left of the previous answer. -/
theorem cleanup_left (c : Conn) (tx : Bytes) (s : UInt8) (left : List Bytes) (pend : Bool)
    (r : List Rx) (h : Left left pend) :
    ∃ o s', cleanup (c.spot tx s left pend r) = (.ok o, c.spot tx s' [] false r) := by
  rcases h with ⟨rfl, rfl⟩ | ⟨rfl, body, st, w, rfl, hb⟩
  · exact ⟨none, s, cleanup_clean _ rfl⟩
  · have key : ∀ (fuel : Nat) (s : UInt8), body.length < fuel → ∃ s',
        cleanupLoop fuel (c.spot tx s (body ++ [Spec.terminator st w]) true r)
        = (.ok (eofSeen st w), c.spot tx s' [] false r) := by
      induction body with
      | nil =>
        intro fuel s hf
        cases fuel with
        | zero => simp at hf
        | succ fuel =>
          refine ⟨s + UInt8.ofNat (Spec.frameCount (Spec.terminator st w)), ?_⟩
          unfold cleanupLoop
          rw [List.nil_append, SM.bind_of_ok (Acts.readPacket c s _ [] true tx r), SM.get_bind_apply,
            isLast_term, SM.ofOut_ok_bind_apply, if_pos rfl, SM.modify_bind_apply, readEof_term]
          rfl
      | cons p body ih =>
        intro fuel s hf
        cases fuel with
        | zero => simp at hf
        | succ fuel =>
          obtain ⟨s', hs'⟩ := ih (fun q hq => hb q (by simp [hq])) fuel
            (s + UInt8.ofNat (Spec.frameCount p)) (by simpa using hf)
          refine ⟨s', ?_⟩
          unfold cleanupLoop
          rw [List.cons_append, SM.bind_of_ok (Acts.readPacket c s p _ true tx r), SM.get_bind_apply,
            isLast_inner _ (hb p (by simp)), SM.ofOut_ok_bind_apply, if_neg (by simp), hs']
    have hl := feed_rx_length { c with tx := tx, pendingResult := true } s
      (body ++ [Spec.terminator st w]) r
    rw [List.length_append] at hl
    obtain ⟨s', hs'⟩ := key _ s (show body.length
      < (c.spot tx s (body ++ [Spec.terminator st w]) true r).rx.length + 1 by
        simp only [List.length_append] at hl ⊢; omega)
    refine ⟨some (eofSeen st w), s', ?_⟩
    unfold cleanup
    rw [if_pos rfl, SM.bind_of_ok hs']
    rfl

theorem writeCommand_after {bytes : Bytes} {c c' : Conn} {o : Option OkPacket}
    (h : cleanup c = (.ok o, c')) (hp : c'.pendingResult = false) :
    writeCommand bytes c = writeCommand bytes c' := by
  unfold writeCommand
  rw [SM.bind_of_ok h, SM.bind_of_ok (cleanup_clean c' hp)]

theorem executeCommand_after {cmd : Command} {data : Bytes} {c c' : Conn} {o : Option OkPacket}
    (h : cleanup c = (.ok o, c')) (hp : c'.pendingResult = false) :
    executeCommand cmd data c = executeCommand cmd data c' := by
  unfold executeCommand
  rw [SM.bind_of_ok h, SM.bind_of_ok (cleanup_clean c' hp)]

theorem sendPieces_after {id : UInt32} {i : Nat} {ps : List Bytes} {c c' : Conn} {o : Option OkPacket}
    (hne : ps ≠ []) (h : cleanup c = (.ok o, c')) (hp : c'.pendingResult = false) :
    sendPieces id i ps c = sendPieces id i ps c' := by
  cases ps with
  | nil => exact absurd rfl hne
  | cons p ps =>
    unfold sendPieces
    rw [SM.bind_apply, SM.bind_apply, writeCommand_after h hp]

theorem longThen_after {α : Type} {id : UInt32} {i : Nat} {vs : List Value} {k : Unit → M α}
    {c c' : Conn} {o : Option OkPacket}
    (h : cleanup c = (.ok o, c')) (hp : c'.pendingResult = false) (hk : k () c = k () c') :
    (sendLongData id i vs >>= k) c = (sendLongData id i vs >>= k) c' := by
  induction vs generalizing i with
  | nil => unfold sendLongData; exact hk
  | cons v vs ih =>
    unfold sendLongData
    by_cases hv : longDataPieces v = []
    · rw [hv]
      exact ih
    · rw [SM.bind_apply, SM.bind_apply, SM.bind_apply, SM.bind_apply, sendPieces_after hv h hp]

theorem sendExecute_after {id : UInt32} {vs : List Value} {c c' : Conn} {o : Option OkPacket}
    (h : cleanup c = (.ok o, c')) (hp : c'.pendingResult = false) :
    sendExecute id vs c = sendExecute id vs c' := by
  obtain ⟨bm, h1, -⟩ := ExecRequest.new_spec (ε := Error) id vs
  unfold sendExecute
  rw [h1, SM.ofOut_ok_bind_apply, SM.ofOut_ok_bind_apply]
  split
  · exact longThen_after h hp (writeCommand_after h hp)
  · exact writeCommand_after h hp

theorem executeCommand_left (c : Conn) (hw : c.wfaults = []) (cmd : Command) (data : Bytes)
    (tx : Bytes) (s : UInt8) (left : List Bytes) (pend : Bool) (ps : List Bytes) (r : List Rx)
    (h : Left left pend) :
    ∃ tx', executeCommand cmd data (c.spot tx s left pend
        (rxOf (Spec.framesAll (UInt8.ofNat (Spec.frameCount (cmd.toByte :: data))) ps) ++ r))
      = (.ok (), c.spot tx' (UInt8.ofNat (Spec.frameCount (cmd.toByte :: data))) ps false r) := by
  obtain ⟨o, s', h1⟩ := cleanup_left c tx s left pend
    (rxOf (Spec.framesAll (UInt8.ofNat (Spec.frameCount (cmd.toByte :: data))) ps) ++ r) h
  refine ⟨tx ++ Spec.frames 0 (cmd.toByte :: data), ?_⟩
  rw [executeCommand_after h1 rfl, executeCommand_clean _ _ _ rfl (by simpa using hw)]
  rfl

theorem sendExecute_left (c : Conn) (hw : c.wfaults = []) (id : UInt32) (vs : List Value)
    (req : ExecRequest) (hreq : ExecRequest.new (ε := Error) id vs = .ok req)
    (tx : Bytes) (s : UInt8) (left : List Bytes) (pend : Bool) (ps : List Bytes) (r : List Rx)
    (h : Left left pend) :
    ∃ tx', sendExecute id vs (c.spot tx s left pend
        (rxOf (Spec.framesAll (UInt8.ofNat (Spec.frameCount req.serialize)) ps) ++ r))
      = (.ok (), c.spot tx' (UInt8.ofNat (Spec.frameCount req.serialize)) ps false r) := by
  obtain ⟨o, s', h1⟩ := cleanup_left c tx s left pend
    (rxOf (Spec.framesAll (UInt8.ofNat (Spec.frameCount req.serialize)) ps) ++ r) h
  obtain ⟨req', h2, h3⟩ := sendExecute_clean id vs (c.spot tx s' [] false
    (rxOf (Spec.framesAll (UInt8.ofNat (Spec.frameCount req.serialize)) ps) ++ r)) rfl
    (by simpa using hw)
  rw [hreq] at h2
  cases h2
  refine ⟨tx ++ Spec.commands (execCmds id vs req), ?_⟩
  rw [sendExecute_after h1 rfl, h3]
  rfl

/-! ### reading an answer -/

theorem readColumnDefs_acts (c : Conn) (n : Nat) (s : UInt8) (defs rest : List Bytes) (pend : Bool)
    (hn : n = defs.length) :
    ∃ b s' left', Acts c (readColumnDefs n) s (defs ++ rest) pend b s' left' pend ∧
      (∃ d, d <:+ defs ∧ left' = d ++ rest) := by
  subst hn
  induction defs generalizing s with
  | nil => exact ⟨.ok [], s, rest, Acts.pure _ _ _ _ _, [], List.suffix_refl _, rfl⟩
  | cons p ps ih =>
    cases hd : runP ColumnDef.deserialize p with
    | err e =>
      refine ⟨.err (.protocol e), s + UInt8.ofNat (Spec.frameCount p), ps ++ rest, ?_, ps, List.suffix_cons p ps, rfl⟩
      unfold readColumnDefs
      refine (Acts.readPacket c s p (ps ++ rest) pend).bind (Acts.bind_err ?_)
      rw [hd]
      exact Acts.ofOut _ _ _ _ _
    | panic =>
      refine ⟨.panic, s + UInt8.ofNat (Spec.frameCount p), ps ++ rest, ?_, ps, List.suffix_cons p ps, rfl⟩
      unfold readColumnDefs
      refine (Acts.readPacket c s p (ps ++ rest) pend).bind (Acts.bind_panic ?_)
      rw [hd]
      exact Acts.ofOut _ _ _ _ _
    | ok d =>
      obtain ⟨b, s', left', h1, d', h2, h3⟩ := ih (s + UInt8.ofNat (Spec.frameCount p))
      have h0 : Acts c (liftP (runP ColumnDef.deserialize p)) (s + UInt8.ofNat (Spec.frameCount p))
          (ps ++ rest) pend (.ok d) (s + UInt8.ofNat (Spec.frameCount p)) (ps ++ rest) pend := by
        rw [hd]
        exact Acts.ofOut _ _ _ _ _
      have hsuf : d' <:+ p :: ps := h2.trans (List.suffix_cons p ps)
      cases b with
      | ok cs =>
        refine ⟨.ok (Column.ofDef d :: cs), s', left', ?_, d', hsuf, h3⟩
        exact (Acts.readPacket c s p (ps ++ rest) pend).bind
          (h0.bind (h1.bind (Acts.pure _ _ _ _ _)))
      | err e =>
        refine ⟨.err e, s', left', ?_, d', hsuf, h3⟩
        exact (Acts.readPacket c s p (ps ++ rest) pend).bind (h0.bind h1.bind_err)
      | panic =>
        refine ⟨.panic, s', left', ?_, d', hsuf, h3⟩
        exact (Acts.readPacket c s p (ps ++ rest) pend).bind (h0.bind h1.bind_panic)

theorem decodeResponse_acts (c : Conn) (p : Bytes) (s : UInt8) (left : List Bytes) (pend : Bool) :
    ∃ b, Acts c (decodeResponse p) s left pend b s left pend := by
  unfold decodeResponse
  cases p with
  | nil => exact ⟨_, fun _ _ => rfl⟩
  | cons b t =>
    by_cases h0 : b = 0x00
    · cases hr : runP (OkPacket.readOk c.data.capabilities) (b :: t) with
      | ok ok =>
        refine ⟨.ok (.ok ok), fun tx r => ?_⟩
        rw [SM.get_bind_apply]; dsimp only; rw [if_pos h0, hr]; rfl
      | err e =>
        refine ⟨.err (.protocol e), fun tx r => ?_⟩
        rw [SM.get_bind_apply]; dsimp only; rw [if_pos h0, hr]; rfl
      | panic =>
        refine ⟨.panic, fun tx r => ?_⟩
        rw [SM.get_bind_apply]; dsimp only; rw [if_pos h0, hr]; rfl
    · by_cases hf : b = 0xFF
      · cases hr : runP (ErrPacket.deserialize c.data.capabilities) (b :: t) with
        | ok ok =>
          refine ⟨.ok (.error ok), fun tx r => ?_⟩
          rw [SM.get_bind_apply]; dsimp only; rw [if_neg h0, if_pos hf, hr]; rfl
        | err e =>
          refine ⟨.err (.protocol e), fun tx r => ?_⟩
          rw [SM.get_bind_apply]; dsimp only; rw [if_neg h0, if_pos hf, hr]; rfl
        | panic =>
          refine ⟨.panic, fun tx r => ?_⟩
          rw [SM.get_bind_apply]; dsimp only; rw [if_neg h0, if_pos hf, hr]; rfl
      · refine ⟨.err (.protocol (.unexpectedPacket (b :: t))), fun tx r => ?_⟩
        rw [SM.get_bind_apply]; dsimp only; rw [if_neg h0, if_neg hf]; rfl

theorem okOrServerError_acts (c : Conn) (x : Except ErrPacket OkPacket) (s : UInt8)
    (left : List Bytes) (pend : Bool) :
    ∃ b, Acts c (okOrServerError x) s left pend b s left pend := by
  cases x with
  | ok x => exact ⟨_, Acts.pure _ _ _ _ _⟩
  | error e => exact ⟨.err (.server e), fun _ _ => rfl⟩

theorem Acts.seq {α β : Type} {c : Conn} {m : M α} {k : α → M β} {s : UInt8}
    {left : List Bytes} {p : Bool} {a : Out Error α}
    (h1 : Acts c m s left p a s left p) (h2 : ∀ a, ∃ b, Acts c (k a) s left p b s left p) :
    ∃ b, Acts c (m >>= k) s left p b s left p := by
  cases a with
  | ok a =>
    obtain ⟨b, hb⟩ := h2 a
    exact ⟨b, h1.bind hb⟩
  | err e => exact ⟨.err e, h1.bind_err⟩
  | panic => exact ⟨.panic, h1.bind_panic⟩

theorem readResponse_acts (c : Conn) (p : Bytes) (s : UInt8) (pend : Bool) :
    ∃ b s', Acts c (readResponse >>= okOrServerError) s [p] pend b s' [] pend := by
  obtain ⟨b, hb⟩ := decodeResponse_acts c p (s + UInt8.ofNat (Spec.frameCount p)) [] pend
  obtain ⟨b2, hb2⟩ := Acts.seq (k := okOrServerError) hb (fun x => okOrServerError_acts c x _ _ _)
  refine ⟨b2, s + UInt8.ofNat (Spec.frameCount p), ?_⟩
  unfold readResponse
  have : (do let packet ← readPacket; decodeResponse packet : M _) >>= okOrServerError
      = readPacket >>= fun packet => decodeResponse packet >>= okOrServerError := by
    funext x; exact congrFun (sm_assoc _ _ _) x
  rw [this]
  exact (Acts.readPacket c s p [] pend).bind hb2

/-- opening a result set. -/
theorem read_acts (c : Conn) (s : UInt8) (ps : List Bytes) (h : Spec.Verdict ps ∨ Spec.Rows ps) :
    ∃ b s' left' pend', Acts c RSet.read s ps false b s' left' pend' ∧ Left left' pend' ∧
      (∀ rs, b = .ok rs → Good rs left' pend') := by
  rcases h with ⟨b, t, rfl, hb⟩ | ⟨descs, rows, st, w, hne, hlen, hrows, rfl⟩
  · have hl : Left [] false := Or.inl ⟨rfl, rfl⟩
    rcases hb with rfl | rfl
    · obtain ⟨x, hx⟩ := decodeResponse_acts c (0x00 :: t)
        (s + UInt8.ofNat (Spec.frameCount (0x00 :: t))) [] false
      cases x with
      | err e =>
        refine ⟨.err e, s + UInt8.ofNat (Spec.frameCount (0x00 :: t)), [], false, ?_, hl, fun _ h => by cases h⟩
        exact (Acts.readPacket c s _ [] false).bind (Acts.get fun tx r => hx.bind_err tx r)
      | panic =>
        refine ⟨.panic, s + UInt8.ofNat (Spec.frameCount (0x00 :: t)), [], false, ?_, hl, fun _ h => by cases h⟩
        exact (Acts.readPacket c s _ [] false).bind (Acts.get fun tx r => hx.bind_panic tx r)
      | ok x =>
        cases x with
        | ok ok =>
          refine ⟨.ok { columns := [], okPacket := some ok }, s + UInt8.ofNat (Spec.frameCount (0x00 :: t)), [], false, ?_, hl, ?_⟩
          · exact (Acts.readPacket c s _ [] false).bind
              (Acts.get fun tx r => (hx.bind (Acts.bind (m := okOrServerError (.ok ok))
                (k := fun ok => pure ({ columns := [], okPacket := some ok } : RSet))
                (Acts.pure _ ok _ _ _) (Acts.pure _ _ _ _ _))) tx r)
          · intro rs hrs
            cases hrs
            exact ⟨hl, fun h => by cases h⟩
        | error e =>
          refine ⟨.err (.server e), s + UInt8.ofNat (Spec.frameCount (0x00 :: t)), [], false, ?_, hl, fun _ h => by cases h⟩
          exact (Acts.readPacket c s _ [] false).bind
            (Acts.get fun tx r => (hx.bind (Acts.bind_err (e := .server e) fun _ _ => rfl)) tx r)
    · cases hr : runP (ErrPacket.deserialize c.data.capabilities) (0xFF :: t) with
      | ok e =>
        refine ⟨.err (.server e), s + UInt8.ofNat (Spec.frameCount (0xFF :: t)), [], false, ?_, hl, fun _ h => by cases h⟩
        refine (Acts.readPacket c s _ [] false).bind (Acts.get fun tx r => ?_)
        dsimp only
        rw [if_neg (by decide), if_neg (by decide), if_pos rfl, hr]
        rfl
      | err e =>
        refine ⟨.err (.protocol e), s + UInt8.ofNat (Spec.frameCount (0xFF :: t)), [], false, ?_, hl, fun _ h => by cases h⟩
        refine (Acts.readPacket c s _ [] false).bind (Acts.get fun tx r => ?_)
        dsimp only
        rw [if_neg (by decide), if_neg (by decide), if_pos rfl, hr]
        rfl
      | panic =>
        refine ⟨.panic, s + UInt8.ofNat (Spec.frameCount (0xFF :: t)), [], false, ?_, hl, fun _ h => by cases h⟩
        refine (Acts.readPacket c s _ [] false).bind (Acts.get fun tx r => ?_)
        dsimp only
        rw [if_neg (by decide), if_neg (by decide), if_pos rfl, hr]
        rfl
  · obtain ⟨b, t, e, h1, h2, h3⟩ := lenenc_head descs.length (List.length_pos_iff.mpr hne)
      (Nat.lt_of_lt_of_le hlen (by decide))
    obtain ⟨x, s', left', k1, d, k2, k3⟩ := readColumnDefs_acts c descs.length
      (s + UInt8.ofNat (Spec.frameCount (b :: t))) (descs.map Spec.colDef)
      (rows ++ [Spec.terminator st w]) true (by simp)
    have hl : Left left' true := by
      refine Or.inr ⟨rfl, d ++ rows, st, w, by rw [k3, List.append_assoc], ?_⟩
      intro p hp
      rcases List.mem_append.1 hp with hp | hp
      · obtain ⟨q, -, rfl⟩ := List.mem_map.1 (k2.subset hp)
        exact Inner.of_colDef q
      · exact Inner.of_isRow (hrows p hp)
    refine ⟨x.map' fun cols => { columns := cols, okPacket := none }, s', left', true, ?_, hl, ?_⟩
    · intro tx r
      have hps : Spec.resultSet descs rows st w
          = (b :: t) :: (descs.map Spec.colDef ++ (rows ++ [Spec.terminator st w])) := by
        unfold Spec.resultSet
        rw [e]
        simp
      rw [hps]
      have hcount : runP P.checkedEatLenencInt (b :: t) = .ok (UInt64.ofNat descs.length) := by
        have := P.checkedEatLenencInt_spec [] (Nat.lt_of_lt_of_le hlen (by decide : 2 ^ 56 ≤ 2 ^ 64))
        rw [List.append_nil] at this
        unfold runP; rw [← e, this]
      unfold RSet.read
      rw [SM.bind_of_ok (Acts.readPacket c s (b :: t) _ false tx r), SM.get_bind_apply]
      dsimp only
      rw [if_neg h1, if_neg h2, if_neg h3, SM.modify_bind_apply, hcount]
      have hnat : (UInt64.ofNat descs.length).toNat = descs.length := by
        rw [UInt64.toNat_ofNat']; exact Nat.mod_eq_of_lt (Nat.lt_of_lt_of_le hlen (by decide))
      have e2 : (liftP (.ok (UInt64.ofNat descs.length)) >>= fun n => (do
          let cols ← readColumns n.toNat
          pure ({ columns := cols, okPacket := none } : RSet) : M RSet))
          = (do let cols ← readColumnDefs descs.length
                pure ({ columns := cols, okPacket := none } : RSet) : M RSet) := by
        funext y
        show ((readColumns (UInt64.ofNat descs.length).toNat >>= fun cols =>
          pure ({ columns := cols, okPacket := none } : RSet) : M RSet)) y = _
        rw [hnat, readColumns_few (Nat.le_of_lt hlen)]
      rw [e2]
      cases x with
      | ok cols =>
        exact (Acts.bind (k := fun cols => pure ({ columns := cols, okPacket := none } : RSet)) k1
          (Acts.pure _ _ _ _ _)) tx r
      | err e => exact k1.bind_err tx r
      | panic => exact k1.bind_panic tx r
    · intro rs hrs
      exact ⟨hl, fun _ => rfl⟩

theorem skipPackets_acts (c : Conn) (n : Nat) (s : UInt8) (ps : List Bytes) (pend : Bool)
    (hn : n = ps.length) : ∃ s', Acts c (skipPackets n) s ps pend (.ok ()) s' [] pend := by
  subst hn
  induction ps generalizing s with
  | nil => exact ⟨s, Acts.pure _ _ _ _ _⟩
  | cons p ps ih =>
    obtain ⟨s', h⟩ := ih (s + UInt8.ofNat (Spec.frameCount p))
    exact ⟨s', (Acts.readPacket c s p ps pend).bind h⟩

end Verif

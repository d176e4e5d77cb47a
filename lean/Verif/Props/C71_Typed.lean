import Verif.Spec.Typed
import Verif.Props.C05_StmtParams
import Verif.Props.C06_LongData
import Verif.Props.C12_Iteration
import Verif.Props.C25_Scalars
import Verif.Props.C26_Calendar
import Verif.Props.C27_Durations

/-! # C71 — Rust values given as parameters come back from a server unchanged -/

namespace Verif

open Spec (Holdable HoldableVal)

/-- Converting back depends on the meaning only. -/
theorem back_meaning (t : RustTy) (v w : Value) (h : Spec.meaning v = Spec.meaning w) (x : t.Carrier)
    (hx : t.back v = .ok x) : t.back w = .ok x := by
  rcases C05_meaning_injective v w h with rfl | ⟨rfl, rfl⟩ | ⟨rfl, rfl⟩
  · exact hx
  · cases t with
    | scalar t => cases t <;> cases hx
    | date => cases hx
    | datetime => cases hx
    | duration => rw [← hx]; rfl
  · cases t with
    | scalar t => cases t <;> cases hx
    | date => cases hx
    | datetime => cases hx
    | duration => rw [← hx]; rfl

theorem into_ne_null (t : RustTy) (x : t.Carrier) (v : Value) (h : t.into x = .ok v) : v ≠ .null := by
  rintro rfl
  cases t with
  | scalar t => cases t <;> cases h
  | date =>
    simp only [RustTy.into, dateIntoValue] at h
    split at h <;> cases h
  | datetime =>
    simp only [RustTy.into, datetimeIntoValue] at h
    split at h <;> cases h
  | duration => cases h

theorem round_trip (t : RustTy) (x : t.Carrier) (hx : Holdable t x) :
    ∃ v, t.into x = .ok v ∧ t.back v = .ok x := by
  cases t with
  | scalar t => exact ⟨_, rfl, C25_round_trip t x⟩
  | date => exact (C26_date_round_trip x hx.1).1 hx.2
  | datetime =>
    obtain ⟨h1, h2, h3, h4, h5, h6⟩ := hx
    exact (C26_datetime_round_trip x h1 h2).1 ⟨h3, h4⟩ h5 (.inl h6)
  | duration =>
    obtain ⟨h1, h2, h3, h4, h5⟩ := hx
    have hlt : ∀ d : Duration, d.Valid → d.nanos < 1000000000 := by
      intro d hv
      unfold Duration.Valid Duration.new at hv
      split at hv
      · cases hv
      · rename_i h; omega
    have hn := hlt x h1
    obtain ⟨neg, days, h, m, s, us, k1, -, -, -, k2, k3⟩ := C27_to_time_partial x h1 h2
      (by unfold Spec.durationNanos; omega) ⟨h4, h5⟩
    obtain ⟨d, k4, k5, k6⟩ := (C27_from_time neg days h m s us).1 k2
    refine ⟨.time neg days h m s us, by rw [← k1]; rfl, ?_⟩
    have hd := hlt d k5
    rw [k3] at k6
    unfold Spec.durationNanos at k6
    have e : d = x := by
      cases d; cases x
      dsimp only at *
      congr 1 <;> omega
    rw [← e]
    exact k4

theorem into_bytes (t : RustTy) (x : t.Carrier) (hx : Holdable t x) (b : Bytes)
    (h : t.into x = .ok (.bytes b)) : b.length < 2 ^ 64 := by
  cases t with
  | scalar t =>
    cases t <;> simp only [RustTy.into, intoValue, Out.ok.injEq, Value.bytes.injEq, reduceCtorEq] at h
    all_goals (first | (subst h; exact hx) | (injection h with h; subst h; exact hx))
  | date =>
    simp only [RustTy.into, dateIntoValue] at h
    split at h <;> cases h
  | datetime =>
    simp only [RustTy.into, datetimeIntoValue] at h
    split at h <;> cases h
  | duration => cases h

/-- Whatever can be held is accepted as a parameter, and every value with the meaning of that parameter is
read back as what was given. -/
theorem C71_value_partial (x : RustVal) (hx : HoldableVal x) :
    ∃ v, x.into = .ok v ∧ (∀ b, v = .bytes b → b.length < 2 ^ 64) ∧
      ∀ w, Spec.meaning w = Spec.meaning v → x.back w = .ok x.val := by
  obtain ⟨t, y⟩ := x
  cases y with
  | none =>
    refine ⟨.null, rfl, (fun b h => by cases h), fun w hw => ?_⟩
    rcases C05_meaning_injective w .null hw with rfl | ⟨-, h⟩ | ⟨-, h⟩
    · rfl
    · cases h
    · cases h
  | some y =>
    obtain ⟨v, h1, h2⟩ := round_trip t y (hx y rfl)
    refine ⟨v, h1, fun b hb => into_bytes t y (hx y rfl) b (hb ▸ h1), fun w hw => ?_⟩
    have h3 := back_meaning t v w hw.symm y h2
    have h4 : w ≠ .null := by
      rintro rfl
      cases t with
      | scalar t => cases t <;> cases h3
      | date => cases h3
      | datetime => cases h3
      | duration => cases h3
    unfold RustVal.back
    split
    · exact absurd rfl h4
    · rename_i w' _
      show (t.back w).map' some = _
      rw [h3]; rfl

theorem forall₂_exists {α β : Type} {R : α → β → Prop} (xs : List α) (h : ∀ x ∈ xs, ∃ y, R x y) :
    ∃ ys, List.Forall₂ R xs ys := by
  induction xs with
  | nil => exact ⟨[], .nil⟩
  | cons x xs ih =>
    obtain ⟨y, hy⟩ := h x (by simp)
    obtain ⟨ys, hys⟩ := ih fun x hx => h x (by simp [hx])
    exact ⟨y :: ys, .cons hy hys⟩

/-- `v` is what the caller reads for the optional value `x`. -/
def ReadsAs (x : RustVal) (v : Value) : Prop := x.back v = .ok x.val

/-- All values can be given as parameters, and rows that a server forms from the parameters are read as the
given values. -/
theorem C71_params_partial (xs : List RustVal) (hx : ∀ x ∈ xs, HoldableVal x) :
    ∃ vs, List.Forall₂ (fun x v => x.into = .ok v) xs vs ∧
      (∀ b, .bytes b ∈ vs → b.length < 2 ^ 64) ∧
      ∀ (picks : List (List Nat)) (rows : List (List Value)), (∀ pick ∈ picks, ∀ i ∈ pick, i < xs.length) →
        rows.map (List.map Spec.meaning)
          = picks.map (fun pick => pick.filterMap fun i => (vs.map Spec.meaning)[i]?) →
        List.Forall₂ (List.Forall₂ fun i v => ∃ x, xs[i]? = some x ∧ ReadsAs x v) picks rows := by
  obtain ⟨vs, h⟩ := forall₂_exists xs fun x h => C71_value_partial x (hx x h)
  refine ⟨vs, h.imp fun _ _ h => h.1, ?_, ?_⟩
  · intro b hb
    obtain ⟨i, hi, hib⟩ := List.getElem_of_mem hb
    have hl := h.length_eq
    exact (List.Forall₂.get h (by omega) hi).2.1 b hib
  · intro picks rows hp hr
    have key : ∀ (pick : List Nat) (row : List Value), (∀ i ∈ pick, i < xs.length) →
        row.map Spec.meaning = pick.filterMap (fun i => (vs.map Spec.meaning)[i]?) →
        List.Forall₂ (fun i v => ∃ x, xs[i]? = some x ∧ ReadsAs x v) pick row := by
      intro pick
      induction pick with
      | nil =>
        intro row _ hr
        cases row with
        | nil => exact .nil
        | cons _ _ => cases hr
      | cons i pick ih =>
        intro row hp hr
        have hi := hp i (by simp)
        have hl := h.length_eq
        have hi' : i < vs.length := by omega
        rw [List.filterMap_cons, List.getElem?_map, List.getElem?_eq_getElem hi'] at hr
        cases row with
        | nil => cases hr
        | cons v row =>
          simp only [List.map_cons, Option.map_some, List.cons.injEq] at hr
          refine .cons ⟨xs[i], List.getElem?_eq_getElem hi, ?_⟩ (ih row (fun j hj => hp j (by simp [hj])) hr.2)
          exact (List.Forall₂.get h hi hi').2.2 v hr.1
    clear h
    induction picks generalizing rows with
    | nil =>
      cases rows with
      | nil => exact .nil
      | cons _ _ => cases hr
    | cons pick picks ih =>
      cases rows with
      | nil => cases hr
      | cons row rows =>
        simp only [List.map_cons, List.cons.injEq] at hr
        exact .cons (key pick row (hp pick (by simp)) hr.1) (ih rows (fun p h => hp p (by simp [h])) hr.2)

/-- the cells of a row that consists of the parameters with the numbers `pick`. -/
def pickRow (ds : List Spec.Datum) (pick : List Nat) : List Spec.Datum := pick.filterMap fun i => ds[i]?

/-- From Rust values to the server and back: the values are given as parameters, the server learns data `ds`
from what is written, and answers with any number of rows, each formed of some of the data in some order.
The rows that are collected are read, as optional values of the types of the parameters, as the values that
were given. -/
theorem C71_echo_partial (xs : List RustVal) (hx : ∀ x ∈ xs, HoldableVal x) (p : Prepared) (c : Conn)
    (st : Spec.LongData) (hn : xs.length = p.params) (hn' : p.params < 2 ^ 16)
    (hp : c.pendingResult = false) (hw : c.wfaults = []) (hst : ∀ j, st p.id.toNat j = none) :
    ∃ vs long exec st' ds, List.Forall₂ (fun x v => x.into = .ok v) xs vs ∧
      Spec.longRun st long = some st' ∧
      Spec.readExecute p.params (st' p.id.toNat) exec
        = some { stmtId := p.id.toNat, cursorType := 0, iterations := 1, params := ds } ∧
      ∀ (picks : List (List Nat)) (descs : List Spec.ColDesc) (cols : List Column) (ps : List Bytes)
        (status warnings : Nat) (r : List Rx), (∀ pick ∈ picks, ∀ i ∈ pick, i < p.params) →
        DescsAs descs cols → descs ≠ [] → descs.length < 2 ^ 56 →
        BinRows cols (picks.map (pickRow ds)) ps →
        c.rx = rxOf (Spec.framesAll (UInt8.ofNat (Spec.frameCount exec))
          (Spec.resultSet descs ps status warnings)) ++ r →
        ∃ c1 rows c2 ok,
          p.query vs c = (.ok { columns := cols, okPacket := none }, c1) ∧
          RSet.collect (binReader mkPlain) { columns := cols, okPacket := none } c1
            = (.ok ({ columns := cols, okPacket := some ok }, rows), c2) ∧
          c2 = { c with rx := r, tx := c.tx ++ Spec.commands (long ++ [exec]), seqId := c2.seqId } ∧
          List.Forall₂ (List.Forall₂ fun i v => ∃ x, xs[i]? = some x ∧ ReadsAs x v) picks rows := by
  obtain ⟨vs, h1, h2, h3⟩ := C71_params_partial xs hx
  have hl : vs.length = p.params := by rw [← hn]; exact h1.length_eq.symm
  obtain ⟨long, exec, st', k1, k2, k3, -⟩ := C06_params_reach_server p.id vs c st hp hw (by omega) h2 hst
  rw [hl] at k3
  refine ⟨vs, long, exec, st', _, h1, k2, k3, ?_⟩
  intro picks descs cols ps status warnings r hpick hd h0 hl64 hrows hrx
  obtain ⟨rows, m1, m2⟩ := rowsAs_bin hrows
  unfold Prepared.query
  rw [if_neg (by simp [hl]), SM.bind_of_ok k1]
  generalize hs : UInt8.ofNat (Spec.frameCount exec) = s at hrx
  have e2 : ({ c with tx := c.tx ++ Spec.commands (long ++ [exec]), seqId := s } : Conn)
      = Conn.feed { c with tx := c.tx ++ Spec.commands (long ++ [exec]) } s
          (headPackets descs ++ (ps ++ [Spec.terminator status warnings])) r := by
    simp only [Conn.feed, hrx, Spec.resultSet, headPackets]
    simp
  rw [e2]
  have n1 := read_head descs cols { c with tx := c.tx ++ Spec.commands (long ++ [exec]) } s
    (ps ++ [Spec.terminator status warnings]) r hd h0 hl64
  have n2 := collect_rows (binReader mkPlain) { columns := cols, okPacket := none }
    { c with tx := c.tx ++ Spec.commands (long ++ [exec]), pendingResult := true }
    (Spec.seqAfter s (headPackets descs)) ps [] rows status warnings r rfl m1
  refine ⟨_, rows, _, _, n1, n2, ?_, h3 picks rows (fun pick h i hi => hn ▸ hpick pick h i hi) m2⟩
  rw [← hp]
  rfl

/-- What was stored and is later queried in the text protocol: rows formed of the data of the parameters are read as
the values that were given. -/
theorem C71_text_partial (xs : List RustVal) (hx : ∀ x ∈ xs, HoldableVal x) :
    ∃ vs, List.Forall₂ (fun x v => x.into = .ok v) xs vs ∧
      ∀ (fp : FloatParse) (sql : Str) (c : Conn) (picks : List (List Nat)) (descs : List Spec.ColDesc)
        (cols : List Column) (ps : List Bytes) (status warnings : Nat) (r : List Rx),
        c.pendingResult = false → c.wfaults = [] → (∀ pick ∈ picks, ∀ i ∈ pick, i < xs.length) →
        DescsAs descs cols → descs ≠ [] → descs.length < 2 ^ 56 →
        TextRows fp cols (picks.map (pickRow (vs.map Spec.meaning))) ps →
        c.rx = rxOf (Spec.framesAll (UInt8.ofNat (Spec.frameCount (0x03 :: utf8 sql)))
          (Spec.resultSet descs ps status warnings)) ++ r →
        ∃ c1 rows c2 ok,
          query sql c = (.ok { columns := cols, okPacket := none }, c1) ∧
          RSet.collect (textReader fp mkPlain) { columns := cols, okPacket := none } c1
            = (.ok ({ columns := cols, okPacket := some ok }, rows), c2) ∧
          List.Forall₂ (List.Forall₂ fun i v => ∃ x, xs[i]? = some x ∧ ReadsAs x v) picks rows := by
  obtain ⟨vs, h1, -, h3⟩ := C71_params_partial xs hx
  refine ⟨vs, h1, ?_⟩
  intro fp sql c picks descs cols ps status warnings r hp hw hpick hd h0 hl hrows hrx
  obtain ⟨c1, rows, c2, ok, k1, k2, k3, -⟩ :=
    C12_query_collect fp sql c descs cols _ ps status warnings r hp hw hd h0 hl hrows hrx
  exact ⟨c1, rows, c2, ok, k1, k2, h3 picks rows hpick k3⟩

/-- Half a second before zero is accepted as a parameter and comes back as half a second after zero. -/
theorem C71_sign_violated :
    (⟨.duration, some (Duration.mk (-1) 500000000)⟩ : RustVal).into = .ok (.time false 0 0 0 0 500000) ∧
    (⟨.duration, some (Duration.mk (-1) 500000000)⟩ : RustVal).back (.time false 0 0 0 0 500000)
      = .ok (some (Duration.mk 0 500000000)) := by
  constructor <;> rfl

/-- A nanosecond is accepted as a part of a parameter, and dropped. -/
theorem C71_nanos_violated :
    (⟨.duration, some (Duration.mk 1 1)⟩ : RustVal).into = .ok (.time false 0 0 0 1 0) ∧
    (⟨.duration, some (Duration.mk 1 1)⟩ : RustVal).back (.time false 0 0 0 1 0)
      = .ok (some (Duration.mk 1 0)) := by
  constructor <;> rfl

/-- Four parameters: a negative duration, a text, none, a date. -/
def exVals : List RustVal :=
  [⟨.duration, some (Duration.mk (-6) 800000000)⟩, ⟨.scalar .string, some "hé".toList⟩,
   ⟨.scalar .i64, none⟩, ⟨.date, some ⟨2024, 2, 29⟩⟩]

theorem C71_example : ∀ x ∈ exVals, HoldableVal x := by
  intro x hx y hy
  simp only [exVals, List.mem_cons, List.not_mem_nil, or_false] at hx
  rcases hx with rfl | rfl | rfl | rfl
  · injection hy with hy; subst hy
    exact ⟨by decide, by decide, by decide, by decide, by decide⟩
  · injection hy with hy; subst hy
    show (utf8 _).length < 2 ^ 64
    decide
  · cases hy
  · injection hy with hy; subst hy
    exact ⟨by show NaiveDate.fromYmdOpt _ _ _ = _; decide, by decide, by decide⟩

/-- What the server is told, and a row of some of it, as read. -/
theorem C71_example_values :
    exVals.map RustVal.into = [.ok (.time true 0 0 0 5 200000), .ok (.bytes [104, 195, 169]), .ok .null,
      .ok (.date 2024 2 29)] ∧
    (∀ i v, (i, v) ∈ [(3, Value.date 2024 2 29), (2, .null), (0, .time true 0 0 0 5 200000)] →
      ∃ x, exVals[i]? = some x ∧ ReadsAs x v) := by
  refine ⟨rfl, ?_⟩
  intro i v h
  simp only [List.mem_cons, Prod.mk.injEq, List.not_mem_nil, or_false] at h
  rcases h with ⟨rfl, rfl⟩ | ⟨rfl, rfl⟩ | ⟨rfl, rfl⟩
  · exact ⟨_, rfl, rfl⟩
  · exact ⟨_, rfl, rfl⟩
  · exact ⟨_, rfl, rfl⟩

end Verif

import Verif.Props.C102_Release
import Verif.Props.C90_Total

/-!
# C102 for futures

Poll by poll the two builds do the same, also when a call is dropped before it has ended.
-/

namespace Verif

/-- whatever the polls find, `p'` does what `p` does, or `p` panics. -/
def Code.Agrees {α : Type} (p p' : Code α) : Prop :=
  ∀ T l es d r, Exec T p l es d r → (∃ l1 rest, r = .done .panic l1 rest) ∨ Exec T p' l es d r

namespace Code.Agrees

variable {α β σ : Type}

theorem refl (p : Code α) : p.Agrees p := fun _ _ _ _ _ h => .inr h

theorem out {x x' : Out Error α} (h : x.Agrees x') : (Code.out x).Agrees (Code.out x') := by
  rcases h with rfl | rfl
  · exact fun T l es d r h => .inl ⟨l, es, h.2⟩
  · exact refl _

theorem crash (p : Code α) : (Async.crash : Code α).Agrees p := fun _ l es _ _ h => .inl ⟨l, es, h.2⟩

theorem bind {p p' : Code β} {k k' : β → Code α} (h : p.Agrees p') (hk : ∀ b, (k b).Agrees (k' b)) :
    (p >>= k).Agrees (p' >>= k') := by
  intro T l es d r hx
  cases hx with
  | ok h1 h2 =>
    rcases h _ _ _ _ _ h1 with ⟨_, _, e⟩ | h1
    · cases e
    · rcases hk _ _ _ _ _ _ h2 with e | h2
      · exact .inl e
      · exact .inr (.ok h1 h2)
  | err h1 =>
    rcases h _ _ _ _ _ h1 with ⟨_, _, e⟩ | h1
    · cases e
    · exact .inr (.err h1)
  | panic h1 => exact .inl ⟨_, _, rfl⟩
  | wait h1 =>
    rcases h _ _ _ _ _ h1 with ⟨_, _, e⟩ | h1
    · cases e
    · exact .inr (.wait h1)

theorem attempt {p p' : Code α} (h : p.Agrees p') : (Code.attempt p).Agrees (.attempt p') := by
  intro T l es d r hx
  cases hx with
  | ok h1 =>
    rcases h _ _ _ _ _ h1 with ⟨_, _, e⟩ | h1
    · cases e
    · exact .inr (.ok h1)
  | err h1 =>
    rcases h _ _ _ _ _ h1 with ⟨_, _, e⟩ | h1
    · cases e
    · exact .inr (.err h1)
  | panic h1 => exact .inl ⟨_, _, rfl⟩
  | wait h1 =>
    rcases h _ _ _ _ _ h1 with ⟨_, _, e⟩ | h1
    · cases e
    · exact .inr (.wait h1)

theorem loop {body body' : σ → Code (σ ⊕ α)} (h : ∀ s, (body s).Agrees (body' s)) (s : σ) :
    (Code.loop body s).Agrees (.loop body' s) := by
  intro T l es d r hx
  replace hx : Act.Loop (fun s => Exec T (body s)) s l es d r := hx
  change _ ∨ Act.Loop (fun s => Exec T (body' s)) s l es d r
  induction hx with
  | again h1 _ ih =>
    rcases h _ _ _ _ _ _ h1 with ⟨_, _, e⟩ | h1
    · cases e
    · exact ih.imp_right fun h2 => .again h1 h2
  | stop h1 =>
    rcases h _ _ _ _ _ _ h1 with ⟨_, _, e⟩ | h1
    · cases e
    · exact .inr (.stop h1)
  | err h1 =>
    rcases h _ _ _ _ _ _ h1 with ⟨_, _, e⟩ | h1
    · cases e
    · exact .inr (.err h1)
  | panic h1 => exact .inl ⟨_, _, rfl⟩
  | wait h1 =>
    rcases h _ _ _ _ _ _ h1 with ⟨_, _, e⟩ | h1
    · cases e
    · exact .inr (.wait h1)

theorem ite {c : Prop} [Decidable c] {p p' q q' : Code α} (h : p.Agrees p') (h' : q.Agrees q') :
    (if c then p else q).Agrees (if c then p' else q') := by
  split
  · exact h
  · exact h'

theorem next {R : Type} {rd rd' : RowReader R} (h : rd.Agrees rd') (rs : RSet) :
    (Async.next rd rs).Agrees (Async.next rd' rs) := by
  obtain ⟨hr, hb⟩ := h
  unfold Async.next
  refine ite (refl _) (bind (refl _) fun p => bind (refl _) fun c => bind (refl _) fun last => ite (refl _) ?_)
  rw [hb]
  refine bind (out ?_) fun _ => refl _
  rcases hr p rs.columns with e | e <;> rw [e]
  · exact .inl rfl
  · exact .inr rfl

theorem collect {R : Type} {rd rd' : RowReader R} (h : rd.Agrees rd') (rs : RSet) :
    (Async.collect rd rs).Agrees (Async.collect rd' rs) := by
  refine loop (fun x => ?_) _
  unfold Async.collectTurn
  exact bind (next h x.1) fun _ => refl _

theorem drain {R : Type} {rd rd' : RowReader R} (h : rd.Agrees rd') (rs : RSet) :
    (Async.drain rd rs).Agrees (Async.drain rd' rs) := bind (collect h rs) fun _ => refl _

theorem one {R : Type} {rd rd' : RowReader R} (h : rd.Agrees rd') (rs : RSet) :
    (Async.one rd rs).Agrees (Async.one rd' rs) := by
  unfold Async.one
  refine bind (attempt (next h rs)) fun x => ?_
  cases x with
  | ok x => exact bind (drain h _) fun _ => refl _
  | error e => exact bind (drain h _) fun _ => refl _

theorem finish {R : Type} {rd rd' : RowReader R} (h : rd.Agrees rd') (rs : RSet) :
    (Async.finish rd rs).Agrees (Async.finish rd' rs) := by
  unfold Async.finish
  cases rs.okPacket with
  | some ok => exact refl _
  | none => exact bind (drain h _) fun _ => refl _

theorem connect (cr : Crypto) (alnum : Char → Bool) (fp : FloatParse) :
    (Async.connect cr alnum fp).Agrees (Async.connectRel cr alnum fp) := by
  refine bind (bind (bind (refl _) fun p => ?_) fun _ => refl _) fun _ => bind (refl _) fun l => ite ?_ (refl _)
  · rcases greeting_agrees.runP p with h | h <;> rw [h]
    · exact crash _
    · exact refl _
  · exact bind (refl _) fun rs => bind (next (textReader_agrees fp mkPlain) rs) fun _ => refl _

theorem migratorOpen (fp : FloatParse) (ms : List MigList) (debug : Bool) :
    (Async.migratorOpen debug fp ms).Agrees (Async.migratorOpenRel fp ms) := by
  unfold Async.migratorOpen
  split
  · exact crash _
  · refine bind ?_ fun _ => ?_
    · exact bind (refl _) fun rs => bind (collect (textReader_agrees fp mkPlain) rs) fun _ => refl _
    · refine bind (refl _) fun rs => loop (fun x => ?_) _
      unfold Async.loadTurn Async.loadTurnRel
      exact bind (next (textReader_agrees fp migrationOf) x.1) fun _ => refl _

end Code.Agrees

/-- a future in a build with overflow checks, and the same in a release build. -/
inductive Spec.TwoBuilds : {α : Type} → Code α → Code α → Prop
  | same {α : Type} (p : Code α) : TwoBuilds p p
  | connect (cr : Crypto) (alnum : Char → Bool) (fp : FloatParse) :
      TwoBuilds (Async.connect cr alnum fp) (Async.connectRel cr alnum fp)
  | next {R : Type} (fp : FloatParse) (mk : List Column → List Value → Out ParseError R) (rs : RSet) :
      TwoBuilds (Async.next (textReader fp mk) rs) (Async.next (textReaderRel fp mk) rs)
  | collect {R : Type} (fp : FloatParse) (mk : List Column → List Value → Out ParseError R) (rs : RSet) :
      TwoBuilds (Async.collect (textReader fp mk) rs) (Async.collect (textReaderRel fp mk) rs)
  | one {R : Type} (fp : FloatParse) (mk : List Column → List Value → Out ParseError R) (rs : RSet) :
      TwoBuilds (Async.one (textReader fp mk) rs) (Async.one (textReaderRel fp mk) rs)
  | finish {R : Type} (fp : FloatParse) (mk : List Column → List Value → Out ParseError R) (rs : RSet) :
      TwoBuilds (Async.finish (textReader fp mk) rs) (Async.finish (textReaderRel fp mk) rs)
  | migrator (debug : Bool) (fp : FloatParse) (ms : List MigList) :
      TwoBuilds (Async.migratorOpen debug fp ms) (Async.migratorOpenRel fp ms)

/-- Poll by poll: with the same polls a release build reads and writes the same, takes as long, and ends or is suspended
at the same place with the same connection, and in no other way; unless the build with checks panics. -/
theorem C102_polls {α : Type} {p p' : Code α} (h : Spec.TwoBuilds p p') {T : Nat} {l : Loc} {es : List Poll} {d : Did}
    {r : Ran α} (hx : Exec T p l es d r) :
    (∃ l1 rest, r = .done .panic l1 rest) ∨ ∀ d' r', Exec T p' l es d' r' ↔ d' = d ∧ r' = r := by
  have key : p.Agrees p' := by
    cases h with
    | same p => exact .refl p
    | connect cr alnum fp => exact .connect cr alnum fp
    | next fp mk rs => exact .next (textReader_agrees fp mk) rs
    | collect fp mk rs => exact .collect (textReader_agrees fp mk) rs
    | one fp mk rs => exact .one (textReader_agrees fp mk) rs
    | finish fp mk rs => exact .finish (textReader_agrees fp mk) rs
    | migrator debug fp ms => exact .migratorOpen fp ms debug
  rcases key _ _ _ _ _ hx with e | e
  · exact .inl e
  · refine .inr fun d' r' => ⟨fun y => C90_unique p' y e, ?_⟩
    rintro ⟨rfl, rfl⟩
    exact e

/-- In particular a call dropped while it waits leaves the same connection behind. -/
theorem C102_dropped {α : Type} {p p' : Code α} (h : Spec.TwoBuilds p p') {T : Nat} {l l' : Loc} {es : List Poll} {d : Did}
    {w : Spot} (hx : Exec T p l es d (.waiting w l')) : Exec T p' l es d (.waiting w l') := by
  rcases C102_polls h hx with ⟨_, _, e⟩ | e
  · cases e
  · exact (e _ _).2 ⟨rfl, rfl⟩

namespace C102ex

def col : Column := ⟨[], [], [], [], .time, 0⟩
def fp : FloatParse := ⟨fun _ => none, fun _ => none⟩

/-- a row with the time 00:02:03. -/
def row : Bytes := Spec.frames 0 [8, 0x30, 0x30, 0x3A, 0x30, 0x32, 0x3A, 0x30, 0x33]

/-- a row with the time 00:02:03.0000001. -/
def fine : Bytes :=
  Spec.frames 0 [16, 0x30, 0x30, 0x3A, 0x30, 0x32, 0x3A, 0x30, 0x33, 0x2E, 0x30, 0x30, 0x30, 0x30, 0x30, 0x30, 0x31]

/-- the values of the row that was read; a panic; a call that waits. -/
def seen : Option (Did × Ran (RSet × Option (List Column × List Value))) → Option (Out Unit (Option (List Value)))
  | some (_, .done (.ok (_, r)) _ _) => some (.ok (r.map (·.2)))
  | some (_, .done (.err _) _ _) => none
  | some (_, .done .panic _ _) => some .panic
  | some (_, .waiting _ _) => some (.err ())
  | none => none

def keep (cols : List Column) (vs : List Value) : Out ParseError (List Column × List Value) := .ok (cols, vs)

/-- reading it in two pieces in a build with checks and in a release build. -/
def both (bs : Bytes) : Option (Out Unit (Option (List Value))) × Option (Out Unit (Option (List Value))) :=
  let es : List Poll := [⟨0, .bytes (bs.take 4)⟩, ⟨1, .notReady⟩, ⟨2, .bytes ((bs.drop 4).take 3)⟩, ⟨3, .bytes (bs.drop 7)⟩]
  let rs : RSet := { columns := [col], okPacket := none }
  (seen ((Async.next (textReader fp keep) rs).poll 10 5 { (exConn []).loc with seqId := 0 } es),
    seen ((Async.next (textReaderRel fp keep) rs).poll 10 5 { (exConn []).loc with seqId := 0 } es))

end C102ex

/-- a row in two pieces, the first part of it, and one that stops the build with checks. -/
example : C102ex.both C102ex.row =
      (some (.ok (some [.time false 0 0 2 3 0])), some (.ok (some [.time false 0 0 2 3 0]))) ∧
    C102ex.both (C102ex.row.take 9) = (some (.err ()), some (.err ())) ∧
    (C102ex.both C102ex.fine).1 = some .panic := by
  refine ⟨?_, ?_, ?_⟩ <;> decide +kernel

end Verif

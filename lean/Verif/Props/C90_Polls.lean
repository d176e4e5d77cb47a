import Verif.Proofs.Async
import Verif.Props.C12_Iteration

/-!
# C90: how a call is polled does not matter

Reads and writes happen in pieces, at any time, with any number of polls that find nothing ready.  Only what the stream
delivered, as one sequence of bytes and failures, matters, not how.
-/

namespace Verif

open Spec

/-- A call that has finished has returned, written and left behind what the function does on the sequence of bytes and
failures that the stream delivered, in whatever pieces and at whatever times; and it has read all of it. -/
theorem C90_tape {α : Type} {p : Code α} {m : M α} (h : AnyFuture p m) {T : Nat} {l l' : Loc} {es rest : List Poll}
    {d : Did} {o : Out Error α} (hx : Exec T p l es d (.done o l' rest)) (rx : List Rx) (tx : Bytes)
    (wf : List (Option (Nat × IoKind))) :
    m (l.conn (d.rx ++ rx) tx (d.wf ++ wf)) = (o, l'.conn rx (tx ++ d.tx) wf) := by
  cases h with
  | call h => exact (Twin.call h).sound hx rx tx wf
  | one rd rs => exact OnTape.one rd rs hx rx tx wf

/-- The same call polled in two ways, with different limits of time: if what the stream delivered in one case is the
beginning of what it had to deliver in the other (bytes, failures of reads and failures of writes), both end in the same
way, have read and written the same and leave the same connection. -/
theorem C90_pieces {α : Type} {p : Code α} {m : M α} (h : AnyFuture p m) {T1 T2 : Nat} {l l1 l2 : Loc}
    {es1 es2 rest1 rest2 : List Poll} {d1 d2 : Did} {o1 o2 : Out Error α}
    (h1 : Exec T1 p l es1 d1 (.done o1 l1 rest1)) (h2 : Exec T2 p l es2 d2 (.done o2 l2 rest2))
    (rx1 rx2 : List Rx) (wf1 wf2 : List (Option (Nat × IoKind))) (hr : d1.rx ++ rx1 = d2.rx ++ rx2)
    (hw : d1.wf ++ wf1 = d2.wf ++ wf2) :
    o1 = o2 ∧ l1 = l2 ∧ d1.rx = d2.rx ∧ d1.tx = d2.tx ∧ d1.wf = d2.wf := by
  have e1 := C90_tape h h1 rx1 [] wf1
  have e2 := C90_tape h h2 rx2 [] wf2
  rw [hr, hw, e2] at e1
  obtain ⟨ho, hc⟩ := Prod.mk.inj e1
  simp only [Loc.conn, List.nil_append, Conn.mk.injEq] at hc
  obtain ⟨a1, a2, a3, a4, a5, a6, a7⟩ := hc
  refine ⟨ho.symm, ?_, ?_, a2.symm, ?_⟩
  · cases l1; cases l2; simp_all
  · rw [a1] at hr
    exact List.append_cancel_right hr
  · rw [a3] at hw
    exact List.append_cancel_right hw

/-- Everything a function does on a tape without failing writes comes about by polling: there are polls, for every limit
of time, that deliver this tape (its end being told whenever more is asked for), and lead there. -/
theorem C90_real {α : Type} {p : Code α} {m : M α} (h : AnyFuture p m) (T : Nat) (c : Conn) (hw : c.wfaults = []) :
    ∃ es d, Exec T p c.loc es d (.done (m c).1 (m c).2.loc []) ∧ Fits d.rx c.rx (m c).2.rx ∧
      (m c).2.tx = c.tx ++ d.tx := by
  have hr : Real p m := by
    cases h with
    | call h => exact (Twin.call h).real
    | one rd rs => exact Real.one rd rs
  obtain ⟨es, d, o, l', rx', h1, h2, -, h3⟩ := hr T c.loc c.rx c.tx
  have e : c.loc.conn c.rx c.tx [] = c := by
    cases c
    simp only at hw
    subst hw
    rfl
  rw [e] at h3
  rw [h3]
  refine ⟨es, d, ?_, h2, rfl⟩
  have := h1 []
  rw [List.append_nil] at this
  exact this

theorem Act.Bind.unique {α β : Type} {m : Act β} {k : β → Act α}
    (h1 : ∀ {l es d r d' r'}, m l es d r → m l es d' r' → d = d' ∧ r = r')
    (h2 : ∀ {b l es d r d' r'}, k b l es d r → k b l es d' r' → d = d' ∧ r = r') {l : Loc} {es : List Poll} {d d' : Did}
    {r r' : Ran α} (x : Act.Bind m k l es d r) (y : Act.Bind m k l es d' r') : d = d' ∧ r = r' := by
  cases x with
  | ok a b =>
    cases y with
    | ok a' b' =>
      obtain ⟨rfl, e⟩ := h1 a a'
      cases e
      obtain ⟨rfl, rfl⟩ := h2 b b'
      exact ⟨rfl, rfl⟩
    | err a' => cases (h1 a a').2
    | panic a' => cases (h1 a a').2
    | wait a' => cases (h1 a a').2
  | err a =>
    cases y with
    | ok a' _ => cases (h1 a a').2
    | err a' => obtain ⟨rfl, e⟩ := h1 a a'; cases e; exact ⟨rfl, rfl⟩
    | panic a' => cases (h1 a a').2
    | wait a' => cases (h1 a a').2
  | panic a =>
    cases y with
    | ok a' _ => cases (h1 a a').2
    | err a' => cases (h1 a a').2
    | panic a' => obtain ⟨rfl, e⟩ := h1 a a'; cases e; exact ⟨rfl, rfl⟩
    | wait a' => cases (h1 a a').2
  | wait a =>
    cases y with
    | ok a' _ => cases (h1 a a').2
    | err a' => cases (h1 a a').2
    | panic a' => cases (h1 a a').2
    | wait a' => obtain ⟨rfl, e⟩ := h1 a a'; cases e; exact ⟨rfl, rfl⟩

theorem Act.Attempt.unique {α : Type} {m : Act α}
    (h1 : ∀ {l es d r d' r'}, m l es d r → m l es d' r' → d = d' ∧ r = r') {l : Loc} {es : List Poll} {d d' : Did}
    {r r' : Ran (Except Error α)} (x : Act.Attempt m l es d r) (y : Act.Attempt m l es d' r') : d = d' ∧ r = r' := by
  cases x <;> rename_i a <;> cases y <;> rename_i a' <;>
    first | (cases (h1 a a').2; done) | (obtain ⟨rfl, e⟩ := h1 a a'; cases e; exact ⟨rfl, rfl⟩)

theorem Act.Loop.unique {σ α : Type} {body : σ → Act (σ ⊕ α)}
    (h1 : ∀ {s l es d r d' r'}, body s l es d r → body s l es d' r' → d = d' ∧ r = r') {s : σ} {l : Loc} {es : List Poll}
    {d d' : Did} {r r' : Ran α} (x : Act.Loop body s l es d r) (y : Act.Loop body s l es d' r') : d = d' ∧ r = r' := by
  induction x generalizing d' r' with
  | again a _ ih =>
    cases y with
    | again a' b' =>
      obtain ⟨rfl, e⟩ := h1 a a'
      cases e
      obtain ⟨rfl, rfl⟩ := ih b'
      exact ⟨rfl, rfl⟩
    | stop a' => cases (h1 a a').2
    | err a' => cases (h1 a a').2
    | panic a' => cases (h1 a a').2
    | wait a' => cases (h1 a a').2
  | stop a =>
    cases y with
    | again a' _ => cases (h1 a a').2
    | stop a' => obtain ⟨rfl, e⟩ := h1 a a'; cases e; exact ⟨rfl, rfl⟩
    | err a' => cases (h1 a a').2
    | panic a' => cases (h1 a a').2
    | wait a' => cases (h1 a a').2
  | err a =>
    cases y with
    | again a' _ => cases (h1 a a').2
    | stop a' => cases (h1 a a').2
    | err a' => obtain ⟨rfl, e⟩ := h1 a a'; cases e; exact ⟨rfl, rfl⟩
    | panic a' => cases (h1 a a').2
    | wait a' => cases (h1 a a').2
  | panic a =>
    cases y with
    | again a' _ => cases (h1 a a').2
    | stop a' => cases (h1 a a').2
    | err a' => cases (h1 a a').2
    | panic a' => obtain ⟨rfl, e⟩ := h1 a a'; cases e; exact ⟨rfl, rfl⟩
    | wait a' => cases (h1 a a').2
  | wait a =>
    cases y with
    | again a' _ => cases (h1 a a').2
    | stop a' => cases (h1 a a').2
    | err a' => cases (h1 a a').2
    | panic a' => cases (h1 a a').2
    | wait a' => obtain ⟨rfl, e⟩ := h1 a a'; cases e; exact ⟨rfl, rfl⟩

/-- The polls determine everything: what is read and written, how long it takes, and where the call is then. -/
theorem C90_unique {α : Type} (p : Code α) {T : Nat} {l : Loc} {es : List Poll} {d d' : Did} {r r' : Ran α}
    (x : Exec T p l es d r) (y : Exec T p l es d' r') : d = d' ∧ r = r' := by
  induction p generalizing l es d d' with
  | out o => obtain ⟨rfl, rfl⟩ := x; obtain ⟨rfl, rfl⟩ := y; exact ⟨rfl, rfl⟩
  | get => obtain ⟨rfl, rfl⟩ := x; obtain ⟨rfl, rfl⟩ := y; exact ⟨rfl, rfl⟩
  | modify f => obtain ⟨rfl, rfl⟩ := x; obtain ⟨rfl, rfl⟩ := y; exact ⟨rfl, rfl⟩
  | read n =>
    cases x <;> rename_i a <;> cases y <;> rename_i a' <;>
      first | (cases a.symm.trans a'; exact ⟨rfl, rfl⟩) | cases a.symm.trans a'
  | write bs =>
    cases x <;> rename_i a <;> cases y <;> rename_i a' <;>
      first | (cases a.symm.trans a'; exact ⟨rfl, rfl⟩) | cases a.symm.trans a'
  | bind m k ihm ihk => exact Act.Bind.unique (m := Exec T m) (k := fun b => Exec T (k b)) ihm (ihk _) x y
  | attempt m ih => exact Act.Attempt.unique (m := Exec T m) ih x y
  | loop body s ih => exact Act.Loop.unique (body := fun s => Exec T (body s)) (ih _) x y

/-- what is computed for given polls is what happens. -/
theorem C90_run {α : Type} (p : Code α) {T n : Nat} {l : Loc} {es : List Poll} {d : Did} {r : Ran α}
    (h : p.poll T n l es = some (d, r)) : Exec T p l es d r := poll_exec T n p l es d r h

/-! ### an example -/

namespace C90

/-- an answer: 7 rows affected. -/
def answer : Bytes := [7, 0, 0, 1, 0x00, 7, 0, 2, 0, 0, 0]

/-- everything at once. -/
def atOnce : List Poll := [⟨0, .wrote 4⟩, ⟨0, .wrote 2⟩, ⟨3, .bytes (answer.take 4)⟩, ⟨0, .bytes (answer.drop 4)⟩]

/-- the same in pieces, with polls in between that find nothing ready; the last piece comes late, but before a poll that
finds nothing. -/
def inPieces : List Poll :=
  [⟨0, .wrote 3⟩, ⟨0, .notReady⟩, ⟨2, .wrote 1⟩, ⟨0, .wrote 1⟩, ⟨0, .notReady⟩, ⟨9, .wrote 1⟩,
   ⟨0, .notReady⟩, ⟨5, .bytes [7]⟩, ⟨0, .notReady⟩, ⟨1, .bytes [0, 0]⟩, ⟨0, .bytes [1]⟩,
   ⟨0, .bytes [0x00, 7]⟩, ⟨0, .notReady⟩, ⟨9, .notReady⟩, ⟨90, .bytes [0, 2, 0, 0, 0]⟩]

/-- and once without the last piece: time runs out. -/
def tooLate : List Poll := inPieces.dropLast ++ [⟨1, .notReady⟩]

def done {α : Type} : Option (Did × Ran α) → Option (Out Error α × Bytes × List Rx)
  | some (d, .done o _ []) => some (o, d.tx, d.rx)
  | _ => none

def rows (x : Option (Out Error OkPacket × Bytes × List Rx)) : Option (Option UInt64 × Bytes × Nat) :=
  x.map fun y => (match y.1 with | .ok ok => some ok.affectedRows | _ => none, y.2.1, y.2.2.length)

end C90

/-- 7 rows affected, in one piece and in many; without the last piece the call fails, having lost what it had read of the
packet. -/
theorem C90_example :
    let run := fun es => C90.done ((Async.executeQuery "a".toList).poll 10 5 (exConn []).loc es)
    C90.rows (run C90.atOnce) = some (some 7, [2, 0, 0, 0, 3, 97], 11) ∧
    C90.rows (run C90.inPieces) = some (some 7, [2, 0, 0, 0, 3, 97], 11) ∧
    run C90.tooLate = some (.err (.protocol (.io .timedOut)), [2, 0, 0, 0, 3, 97],
      (C90.answer.take 6).map Rx.byte ++ [.fault .timedOut]) := by
  refine ⟨?_, ?_, ?_⟩ <;> decide +kernel

end Verif

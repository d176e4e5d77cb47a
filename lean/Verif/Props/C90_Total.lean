import Verif.Proofs.Live

/-!
# C90: calls get somewhere, and go on from where they are

-/

namespace Verif

open Spec

/-- Whatever the polls of the stream find, a call ends or is suspended: it does not go round without asking the stream. -/
theorem C90_total {α : Type} {p : Code α} {m : M α} (h : AnyFuture p m) (T : Nat) (l : Loc) (es : List Poll) :
    ∃ d r, Exec T p l es d r := Live.call h T l es

theorem pollRead_more (T : Nat) (es es' : List Poll) (n e : Nat) :
    (∀ r rest tape t, pollRead T es n e = (.done r rest, tape, t) →
      pollRead T (es ++ es') n e = (.done r (rest ++ es'), tape, t)) ∧
    (∀ tape t, pollRead T es n e = (.waiting, tape, t) → tape <+: (pollRead T (es ++ es') n e).2.1) := by
  induction es generalizing n e with
  | nil =>
    unfold pollRead
    split
    · rename_i hn
      refine ⟨fun r rest tape t h => ?_, fun _ _ h => (by cases h)⟩
      cases h
      cases es' <;> simp [hn]
    · exact ⟨fun r rest tape t h => (by cases h), fun _ _ h => by cases h; exact List.nil_prefix⟩
  | cons p es ih =>
    rw [List.cons_append, pollRead, pollRead]
    split
    · exact ⟨fun r rest tape t h => (by cases h; rfl), fun _ _ h => (by cases h)⟩
    · split
      · rename_i bs hp
        split
        · exact ⟨fun r rest tape t h => (by cases h; rfl), fun _ _ h => (by cases h)⟩
        · obtain ⟨i1, i2⟩ := ih (n - (bs.take n).length) (e + p.after)
          rcases hx : pollRead T es (n - (bs.take n).length) (e + p.after) with ⟨x, tape, t⟩
          rw [hx] at i1 i2
          cases x with
          | waiting =>
            refine ⟨fun r rest tape t h => (by cases h), fun tp t h => ?_⟩
            cases h
            have := i2 _ _ rfl
            rcases hy : pollRead T (es ++ es') (n - (bs.take n).length) (e + p.after) with ⟨y, tape', t'⟩
            rw [hy] at this
            rcases y with ⟨_ | _ | _, _⟩ | _ <;> exact List.prefix_append_right_inj _ |>.2 this
          | done r rest =>
            have i1 := i1 _ _ _ _ rfl
            rw [i1]
            cases r <;> exact ⟨fun r rest tape t h => (by cases h; rfl), fun _ _ h => (by cases h)⟩
      · exact ⟨fun r rest tape t h => (by cases h; rfl), fun _ _ h => (by cases h)⟩
      · exact ⟨fun r rest tape t h => (by cases h; rfl), fun _ _ h => (by cases h)⟩
      · split
        · exact ⟨fun r rest tape t h => (by cases h; rfl), fun _ _ h => (by cases h)⟩
        · exact ih _ _
      · split
        · exact ⟨fun r rest tape t h => (by cases h; rfl), fun _ _ h => (by cases h)⟩
        · exact ih _ _

theorem pollWrite_more (T : Nat) (es es' : List Poll) (bs : Bytes) (e : Nat) :
    (∀ r rest w t, pollWrite T es bs e = (.done r rest, w, t) →
      pollWrite T (es ++ es') bs e = (.done r (rest ++ es'), w, t)) ∧
    (∀ w t, pollWrite T es bs e = (.waiting, w, t) → w <+: (pollWrite T (es ++ es') bs e).2.1) := by
  induction es generalizing bs e with
  | nil =>
    unfold pollWrite
    split
    · rename_i hn
      refine ⟨fun r rest tape t h => ?_, fun _ _ h => (by cases h)⟩
      cases h
      cases es' <;> simp [hn]
    · exact ⟨fun r rest tape t h => (by cases h), fun _ _ h => by cases h; exact List.nil_prefix⟩
  | cons p es ih =>
    rw [List.cons_append, pollWrite, pollWrite]
    split
    · exact ⟨fun r rest tape t h => (by cases h; rfl), fun _ _ h => (by cases h)⟩
    · split
      · rename_i k hp
        split
        · exact ⟨fun r rest tape t h => (by cases h; rfl), fun _ _ h => (by cases h)⟩
        · obtain ⟨i1, i2⟩ := ih (bs.drop k) (e + p.after)
          rcases hx : pollWrite T es (bs.drop k) (e + p.after) with ⟨x, w, t⟩
          rw [hx] at i1 i2
          cases x with
          | waiting =>
            refine ⟨fun r rest tape t h => (by cases h), fun tp t h => ?_⟩
            cases h
            exact List.prefix_append_right_inj _ |>.2 (i2 _ _ rfl)
          | done r rest =>
            rw [i1 _ _ _ _ rfl]
            exact ⟨fun r rest tape t h => (by cases h; rfl), fun _ _ h => (by cases h)⟩
      · exact ⟨fun r rest tape t h => (by cases h; rfl), fun _ _ h => (by cases h)⟩
      · exact ⟨fun r rest tape t h => (by cases h; rfl), fun _ _ h => (by cases h)⟩
      · split
        · exact ⟨fun r rest tape t h => (by cases h; rfl), fun _ _ h => (by cases h)⟩
        · exact ih _ _
      · split
        · exact ⟨fun r rest tape t h => (by cases h; rfl), fun _ _ h => (by cases h)⟩
        · exact ih _ _

/-- a call that has ended does not look at further polls. -/
theorem C90_ended {α : Type} (p : Code α) {T : Nat} {l l' : Loc} {es rest : List Poll} {d : Did} {o : Out Error α}
    (h : Exec T p l es d (.done o l' rest)) (es' : List Poll) : Exec T p l (es ++ es') d (.done o l' (rest ++ es')) := by
  induction p generalizing l l' es rest d with
  | out x => obtain ⟨rfl, h⟩ := h; cases h; exact ⟨rfl, rfl⟩
  | get => obtain ⟨rfl, h⟩ := h; cases h; exact ⟨rfl, rfl⟩
  | modify f => obtain ⟨rfl, h⟩ := h; cases h; exact ⟨rfl, rfl⟩
  | read n =>
    generalize hr : Ran.done o l' rest = r at h
    cases h with
    | wait h => cases hr
    | done h =>
      obtain ⟨rfl, rfl, rfl⟩ := Ran.done.inj hr
      exact Act.Read.done ((pollRead_more T _ es' _ _).1 _ _ _ _ h)
  | write bs =>
    generalize hr : Ran.done o l' rest = r at h
    cases h with
    | wait h => cases hr
    | done h =>
      obtain ⟨rfl, rfl, rfl⟩ := Ran.done.inj hr
      exact Act.Write.done ((pollWrite_more T _ es' _ _).1 _ _ _ _ h)
  | bind m k ihm ihk =>
    cases h with
    | ok a b => exact Act.Bind.ok (ihm a) (ihk _ b)
    | err a => exact Act.Bind.err (ihm a)
    | panic a => exact Act.Bind.panic (ihm a)
  | attempt m ih =>
    cases h with
    | ok a => exact Act.Attempt.ok (ih a)
    | err a => exact Act.Attempt.err (ih a)
    | panic a => exact Act.Attempt.panic (ih a)
  | loop body s ih =>
    replace h : Act.Loop (fun s => Exec T (body s)) s l es d (.done o l' rest) := h
    generalize hr : Ran.done o l' rest = r at h
    induction h with
    | again a _ i => exact Act.Loop.again (ih _ a) (i hr)
    | stop a => cases hr; exact Act.Loop.stop (ih _ a)
    | err a => cases hr; exact Act.Loop.err (ih _ a)
    | panic a => cases hr; exact Act.Loop.panic (ih _ a)
    | wait a => cases hr

/-- A suspended call goes on from where it is: polled further, it has read and written what it had, and then more. -/
theorem C90_resumes {α : Type} (p : Code α) {T : Nat} {l l' : Loc} {es es' : List Poll} {d d' : Did} {w : Spot} {r : Ran α}
    (h : Exec T p l es d (.waiting w l')) (h' : Exec T p l (es ++ es') d' r) : d.rx <+: d'.rx ∧ d.tx <+: d'.tx := by
  induction p generalizing l l' es d d' with
  | out x => cases h.2
  | get => cases h.2
  | modify f => cases h.2
  | read n =>
    cases h with
    | wait h =>
      have := (pollRead_more T _ es' _ _).2 _ _ h
      cases h' with
      | done h' => rw [h'] at this; exact ⟨this, List.prefix_refl _⟩
      | wait h' => rw [h'] at this; exact ⟨this, List.prefix_refl _⟩
  | write bs =>
    cases h with
    | wait h =>
      have := (pollWrite_more T _ es' _ _).2 _ _ h
      cases h' with
      | done h' => rw [h'] at this; exact ⟨List.prefix_refl _, this⟩
      | wait h' => rw [h'] at this; exact ⟨List.prefix_refl _, this⟩
  | bind m k ihm ihk =>
    cases h with
    | wait a =>
      cases h' with
      | ok x y =>
        obtain ⟨h1, h2⟩ := ihm a x
        exact ⟨h1.trans (List.prefix_append _ _), h2.trans (List.prefix_append _ _)⟩
      | err x => exact ihm a x
      | panic x => exact ihm a x
      | wait x => exact ihm a x
    | ok a b =>
      have e := C90_ended m a es'
      cases h' with
      | ok x y =>
        obtain ⟨rfl, hr⟩ := C90_unique m e x
        cases hr
        obtain ⟨h1, h2⟩ := ihk _ b y
        exact ⟨(List.prefix_append_right_inj _).2 h1, (List.prefix_append_right_inj _).2 h2⟩
      | err x => cases (C90_unique m e x).2
      | panic x => cases (C90_unique m e x).2
      | wait x => cases (C90_unique m e x).2
  | attempt m ih =>
    cases h with
    | wait a =>
      cases h' with
      | ok x => exact ih a x
      | err x => exact ih a x
      | panic x => exact ih a x
      | wait x => exact ih a x
  | loop body s ih =>
    replace h : Act.Loop (fun s => Exec T (body s)) s l es d (.waiting w l') := h
    replace h' : Act.Loop (fun s => Exec T (body s)) s l (es ++ es') d' r := h'
    generalize hr : Ran.waiting w l' = q at h
    induction h generalizing d' with
    | again a b i =>
      have e := C90_ended (body _) a es'
      cases h' with
      | again x y =>
        obtain ⟨rfl, hq⟩ := C90_unique (body _) e x
        cases hq
        obtain ⟨h1, h2⟩ := i y hr
        exact ⟨(List.prefix_append_right_inj _).2 h1, (List.prefix_append_right_inj _).2 h2⟩
      | stop x => cases (C90_unique (body _) e x).2
      | err x => cases (C90_unique (body _) e x).2
      | panic x => cases (C90_unique (body _) e x).2
      | wait x => cases (C90_unique (body _) e x).2
    | stop a => cases hr
    | err a => cases hr
    | panic a => cases hr
    | wait a =>
      cases hr
      cases h' with
      | again x y =>
        obtain ⟨h1, h2⟩ := ih _ a x
        exact ⟨h1.trans (List.prefix_append _ _), h2.trans (List.prefix_append _ _)⟩
      | stop x => exact ih _ a x
      | err x => exact ih _ a x
      | panic x => exact ih _ a x
      | wait x => exact ih _ a x

end Verif

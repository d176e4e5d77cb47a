import Verif.Spec.FieldType

/-! # C58 — field types are classified by their path suffix -/

namespace Verif

open Spec

theorem matchesRev_iff (a b : List Str) : matchesRev a b = true ↔ a <+: b ∨ b <+: a := by
  induction a generalizing b with
  | nil => simp [matchesRev]
  | cons x a ih =>
    cases b with
    | nil => simp [matchesRev]
    | cons y b =>
      rw [matchesRev]
      by_cases h : x = y
      · subst h
        simp [ih, List.cons_prefix_cons]
      · have h' : ¬ y = x := fun h' => h h'.symm
        simp [h, h', List.cons_prefix_cons]

/-- the loop of the macro decides agreement on the common suffix. -/
theorem pathMatches_iff (p : TyPath) (b : List Str) : pathMatches p b = true ↔ Agree p.idents b := by
  unfold pathMatches Agree
  rw [matchesRev_iff, List.reverse_prefix, List.reverse_prefix]

theorem simplePaths_eq : simplePaths = supported.map fun n => segments n.toList := by decide +kernel

theorem simple_any (p : TyPath) :
    simplePaths.any (pathMatches p ·) = true ↔ ∃ n ∈ supported, IsNamed p n := by
  rw [simplePaths_eq, List.any_map, List.any_eq_true]
  constructor
  · rintro ⟨n, hn, h⟩
    exact ⟨n, hn, (pathMatches_iff _ _).1 h⟩
  · rintro ⟨n, hn, h⟩
    exact ⟨n, hn, (pathMatches_iff _ _).2 h⟩

theorem vec_iff (p : TyPath) : pathMatches p ["std".toList, "vec".toList, "Vec".toList] = true ↔
    IsNamed p "std::vec::Vec" := by
  have : ["std".toList, "vec".toList, "Vec".toList] = segments "std::vec::Vec".toList := by decide +kernel
  rw [this]
  exact pathMatches_iff _ _

theorem option_iff (p : TyPath) : pathMatches p ["std".toList, "option".toList, "Option".toList] = true ↔
    IsNamed p "std::option::Option" := by
  have : ["std".toList, "option".toList, "Option".toList] = segments "std::option::Option".toList := by
    decide +kernel
  rw [this]
  exact pathMatches_iff _ _

theorem u8_iff (p : TyPath) : pathMatches p ["u8".toList] = true ↔ IsNamed p "u8" := by
  have : ["u8".toList] = segments "u8".toList := by decide +kernel
  rw [this]
  exact pathMatches_iff _ _

theorem isSimpleInner_iff (p : TyPath) : isSimpleInner p = true ↔ Basic p := by
  unfold isSimpleInner
  constructor
  · intro h
    by_cases h1 : simplePaths.any (pathMatches p ·) = true
    · obtain ⟨n, hn, h⟩ := (simple_any p).1 h1
      exact .named hn h
    · rw [if_neg h1] at h
      by_cases h2 : pathMatches p ["std".toList, "vec".toList, "Vec".toList] = true
      · rw [if_pos h2] at h
        match hq : p.arg with
        | none => rw [hq] at h; cases h
        | some q => rw [hq] at h; exact .bytes ((vec_iff p).1 h2) hq ((u8_iff q).1 h)
      · rw [if_neg h2] at h; cases h
  · intro h
    cases h with
    | named hn h => rw [if_pos ((simple_any p).2 ⟨_, hn, h⟩)]
    | bytes h1 h2 h3 =>
      split
      · rfl
      · rw [if_pos ((vec_iff p).2 h1), h2]
        exact (u8_iff _).2 h3

theorem agree_last {a b : List Str} (ha : a ≠ []) (hb : b ≠ []) (h : Agree a b) :
    a.getLast? = b.getLast? := by
  rcases h with ⟨t, h⟩ | ⟨t, h⟩
  · rw [← h, List.getLast?_append, List.getLast?_eq_some_getLast ha]
    rfl
  · rw [← h, List.getLast?_append, List.getLast?_eq_some_getLast hb]
    rfl

theorem vec_not_option (p : TyPath) (hp : p.idents ≠ []) (h : IsNamed p "std::option::Option") :
    pathMatches p ["std".toList, "vec".toList, "Vec".toList] = false := by
  cases hv : pathMatches p ["std".toList, "vec".toList, "Vec".toList] with
  | false => rfl
  | true =>
    have h1 := agree_last hp (by decide +kernel) ((vec_iff p).1 hv)
    have h2 := agree_last hp (by decide +kernel) h
    rw [h1] at h2
    exact absurd h2 (by decide +kernel)

theorem isSimple_iff (p : TyPath) (hp : p.idents ≠ []) : isSimple p = true ↔ Plain p := by
  unfold isSimple
  constructor
  · intro h
    by_cases h1 : simplePaths.any (pathMatches p ·) = true
    · obtain ⟨n, hn, h⟩ := (simple_any p).1 h1
      exact .basic (.named hn h)
    · rw [if_neg h1] at h
      have opt : ∀ h : (if pathMatches p ["std".toList, "option".toList, "Option".toList] then
          match p.arg with | some q => isSimpleInner q | none => false else false) = true, Plain p := by
        intro h
        by_cases h3 : pathMatches p ["std".toList, "option".toList, "Option".toList] = true
        · rw [if_pos h3] at h
          match hq : p.arg with
          | none => rw [hq] at h; cases h
          | some q => rw [hq] at h; exact .option ((option_iff p).1 h3) hq ((isSimpleInner_iff q).1 h)
        · rw [if_neg h3] at h; cases h
      by_cases h2 : pathMatches p ["std".toList, "vec".toList, "Vec".toList] = true
      · rw [if_pos h2] at h
        match hq : p.arg with
        | none =>
          rw [hq] at h opt
          exact opt h
        | some q => rw [hq] at h; exact .basic (.bytes ((vec_iff p).1 h2) hq ((u8_iff q).1 h))
      · rw [if_neg h2] at h
        exact opt h
  · intro h
    by_cases h1 : simplePaths.any (pathMatches p ·) = true
    · rw [if_pos h1]
    · rw [if_neg h1]
      cases h with
      | basic h =>
        cases h with
        | named hn h => exact absurd ((simple_any p).2 ⟨_, hn, h⟩) h1
        | bytes h2 h3 h4 =>
          rw [if_pos ((vec_iff p).2 h2), h3]
          exact (u8_iff _).2 h4
      | option h2 h3 h4 =>
        rw [if_neg (by rw [vec_not_option p hp h2]; decide)]
        dsimp only
        rw [if_pos ((option_iff p).2 h2), h3]
        exact (isSimpleInner_iff _).2 h4

theorem pathEq_iff (a b : TyPath) : pathEq a b = true ↔ a.idents = b.idents := by
  have key : ∀ x y : List Str, x.length = y.length → ((x.zip y).all (fun x => x.1 == x.2) = true ↔ x = y) := by
    intro x
    induction x with
    | nil => intro y h; cases y <;> simp_all
    | cons c x ih =>
      intro y h
      cases y with
      | nil => cases h
      | cons d y => simp [ih y (by simpa using h)]
  unfold pathEq
  by_cases h : a.idents.length = b.idents.length
  · rw [if_neg (by simpa using h), key _ _ h]
  · rw [if_pos h]
    constructor
    · intro h'; cases h'
    · intro h'; exact absurd (congrArg List.length h') h

/-- Plain columns, declared structs and references to other models: for every type path. -/
theorem C58_classified (p : TyPath) (types : List SimpleStruct) (hp : p.idents ≠ []) :
    (TypeComplexity.fromPath p types = .simple ↔ Plain p) ∧
    (∀ s, TypeComplexity.fromPath p types = .struct s ↔
      ¬ Plain p ∧ ∃ before after, types = before ++ s :: after ∧ s.path.idents = p.idents ∧
        ∀ t ∈ before, t.path.idents ≠ p.idents) ∧
    (TypeComplexity.fromPath p types = .complex ↔ ¬ Plain p ∧ ∀ t ∈ types, t.path.idents ≠ p.idents) := by
  unfold TypeComplexity.fromPath
  by_cases h : isSimple p = true
  · have hs := (isSimple_iff p hp).1 h
    rw [if_pos h]
    refine ⟨⟨fun _ => hs, fun _ => rfl⟩, fun s => ⟨(by intro h; cases h), fun h' => absurd hs h'.1⟩,
      ⟨(by intro h; cases h), fun h' => absurd hs h'.1⟩⟩
  · have hs : ¬ Plain p := fun h' => h ((isSimple_iff p hp).2 h')
    rw [if_neg h]
    match hf : types.find? fun t => pathEq t.path p with
    | some t =>
      rw [hf]
      dsimp only
      obtain ⟨ht, before, after, he, hb⟩ := List.find?_eq_some_iff_append.1 hf
      have hb' : ∀ t ∈ before, t.path.idents ≠ p.idents := fun u hu h' => by
        have := hb u hu
        rw [(pathEq_iff u.path p).2 h'] at this
        cases this
      refine ⟨⟨(by intro h; cases h), fun h' => absurd h' hs⟩, fun s => ⟨?_, ?_⟩, ⟨(by intro h; cases h), ?_⟩⟩
      · intro h'
        cases h'
        exact ⟨hs, before, after, he, (pathEq_iff _ _).1 ht, hb'⟩
      · rintro ⟨-, b', a', he', hs', hb''⟩
        have : types.find? (fun t => pathEq t.path p) = some s := by
          refine List.find?_eq_some_iff_append.2 ⟨(pathEq_iff _ _).2 hs', b', a', he', fun u hu => ?_⟩
          cases hu' : pathEq u.path p with
          | false => rfl
          | true => exact absurd ((pathEq_iff _ _).1 hu') (hb'' u hu)
        rw [hf] at this
        cases this
        rfl
      · rintro ⟨-, h'⟩
        exact absurd ((pathEq_iff _ _).1 ht) (h' t (by rw [he]; simp))
    | none =>
      rw [hf]
      dsimp only
      rw [List.find?_eq_none] at hf
      refine ⟨⟨(by intro h; cases h), fun h' => absurd h' hs⟩, fun s => ⟨(by intro h; cases h), ?_⟩,
        ⟨fun _ => ⟨hs, fun t ht h' => hf t ht ((pathEq_iff _ _).2 h')⟩, fun _ => rfl⟩⟩
      rintro ⟨-, b', a', he', hs', -⟩
      exact absurd ((pathEq_iff _ _).2 hs') (hf s (by rw [he']; simp))

/-! ### concrete types -/

namespace C58

def ty (s : String) (a : Option TyPath := none) : TyPath := .mk (segments s.toList) a

-- String, string::String, Option<Vec<u8>>
example : isSimple (ty "String") = true ∧ isSimple (ty "string::String") = true ∧
    isSimple (ty "Option" (some (ty "Vec" (some (ty "u8"))))) = true := by decide +kernel
-- Option<Option<u8>>, Vec<i8>, std::time::Duration
example : isSimple (ty "Option" (some (ty "Option" (some (ty "u8"))))) = false ∧
    isSimple (ty "Vec" (some (ty "i8"))) = false ∧ isSimple (ty "std::time::Duration") = false := by decide +kernel
-- any type of these names, however qualified, is taken for the supported one
example : isSimple (ty "my::own::u8") = true ∧ isSimple (ty "Duration") = true := by decide +kernel

end C58

end Verif

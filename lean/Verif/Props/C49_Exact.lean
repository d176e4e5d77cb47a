import Verif.Props.C49_MigrationSql

/-!
# C49 — exactly which names can be written between quotes as they are
-/

namespace Verif

/-- Spec: a name that means itself between double quotes: no double quote, and backslashes only before `%` and `_`, where
MySQL keeps them. -/
def Spec.plainName : Str → Bool
  | [] => true
  | '\\' :: d :: s => (d == '%' || d == '_') && Spec.plainName s
  | c :: s => c != '\\' && c != '"' && Spec.plainName s

/-- what is read and what is left is shorter than the text. -/
theorem lexString_length (q : Char) (x c r : Str) (h : Spec.lexString q x = some (c, r)) : c.length + r.length < x.length := by
  induction hn : x.length using Nat.strongRecOn generalizing x c r with
  | ind n ih =>
    subst hn
    match x with
    | [] => cases h
    | a :: x =>
      rw [Spec.lexString.eq_def] at h
      dsimp only at h
      split at h
      · match x with
        | [] => cases h
        | d :: x =>
          dsimp only at h
          cases hp : Spec.lexString q x with
          | none => rw [hp] at h; cases h
          | some p =>
            rw [hp] at h
            cases h
            have := ih x.length (by simp; omega) x p.1 p.2 hp rfl
            have hu : (Spec.unescape d).length ≤ 2 := by
              unfold Spec.unescape
              repeat' split
              all_goals simp
            simp
            omega
      · split at h
        · match x with
          | [] => cases h; simp
          | d :: x =>
            dsimp only at h
            split at h
            · cases hp : Spec.lexString q x with
              | none => rw [hp] at h; cases h
              | some p =>
                rw [hp] at h
                cases h
                have := ih x.length (by simp; omega) x p.1 p.2 hp rfl
                simp
                omega
            · cases h
              simp
        · cases hp : Spec.lexString q x with
          | none => rw [hp] at h; cases h
          | some p =>
            rw [hp] at h
            cases h
            have := ih x.length (by simp) x p.1 p.2 hp rfl
            simp
            omega

/-- **C49**, exactly what holds: the name of a migration, which is put into the statements between double quotes as it is, is
read as itself if and only if it has no double quote, and no backslash but before `%` and `_`. -/
theorem C49_literal_partial (name rest : Str) (hr : rest.head? ≠ some '"') :
    Spec.lex (['"'] ++ name ++ ['"'] ++ rest) = some (.string name, rest) ↔ Spec.plainName name = true := by
  have hlex : Spec.lex (['"'] ++ name ++ ['"'] ++ rest) =
      (Spec.lexString '"' (name ++ '"' :: rest)).map fun p => (.string p.1, p.2) := by
    simp [Spec.lex]
  have hiff : Spec.lex (['"'] ++ name ++ ['"'] ++ rest) = some (.string name, rest) ↔
      Spec.lexString '"' (name ++ '"' :: rest) = some (name, rest) := by
    rw [hlex]
    cases Spec.lexString '"' (name ++ '"' :: rest) <;> simp [Prod.ext_iff]
  rw [hiff]
  clear hiff hlex
  induction hn : name.length using Nat.strongRecOn generalizing name with
  | ind n ih =>
    subst hn
    match name with
    | [] => simpa [Spec.plainName] using lexString_plain [] rest (by simp) (by simp) hr
    | c :: s =>
      by_cases hb : c = '\\'
      · subst hb
        match s with
        | [] =>
          constructor
          · intro h
            have := lexString_length _ _ _ _ h
            rw [Spec.lexString.eq_def] at h
            simp only [List.cons_append, List.nil_append, if_true] at h
            cases hp : Spec.lexString '"' rest with
            | none => rw [hp] at h; cases h
            | some p =>
              rw [hp] at h
              have hl := lexString_length _ _ _ _ hp
              simp only [Option.map_some, Option.some.injEq, Prod.mk.injEq] at h
              rw [h.2] at hl
              omega
          · intro h
            simp [Spec.plainName] at h
        | d :: s =>
          rw [show ('\\' :: d :: s) ++ '"' :: rest = '\\' :: d :: (s ++ '"' :: rest) from rfl, Spec.lexString.eq_def]
          simp only [if_true]
          by_cases hd : d = '%' ∨ d = '_'
          · have hu : Spec.unescape d = ['\\', d] := by rcases hd with rfl | rfl <;> rfl
            have hp : Spec.plainName ('\\' :: d :: s) = Spec.plainName s := by
              rcases hd with rfl | rfl <;> simp [Spec.plainName]
            have hi := ih s.length (by simp; omega) s rfl
            rw [hp, hu]
            refine Iff.trans ?_ hi
            cases Spec.lexString '"' (s ++ '"' :: rest) <;> simp [Prod.ext_iff]
          · have hp : Spec.plainName ('\\' :: d :: s) = false := by
              simp only [Spec.plainName]
              simp only [not_or] at hd
              simp [hd.1, hd.2]
            rw [hp]
            refine ⟨fun h => ?_, fun h => (by cases h)⟩
            cases hq : Spec.lexString '"' (s ++ '"' :: rest) with
            | none => rw [hq] at h; cases h
            | some p =>
              rw [hq] at h
              simp only [Option.map_some, Option.some.injEq, Prod.mk.injEq] at h
              have hl := lexString_length _ _ _ _ hq
              have hu : (Spec.unescape d).length = 1 := by
                unfold Spec.unescape
                repeat' split
                all_goals first | rfl | (rename_i h1; exact absurd h1 hd)
              have := congrArg List.length h.1
              rw [h.2] at hl
              simp at this hl
              omega
      · by_cases hq : c = '"'
        · subst hq
          have hp : Spec.plainName ('"' :: s) = false := by
            rw [Spec.plainName.eq_def]
            simp
          rw [hp]
          refine ⟨fun h => ?_, fun h => (by cases h)⟩
          rw [List.cons_append, Spec.lexString.eq_def] at h
          simp only [show ('"' : Char) ≠ '\\' by decide, if_false, if_true] at h
          cases hx : s ++ '"' :: rest with
          | nil => simp at hx
          | cons d x =>
            rw [hx] at h
            dsimp only at h
            split at h
            · cases hq : Spec.lexString '"' x with
              | none => rw [hq] at h; cases h
              | some p =>
                rw [hq] at h
                simp only [Option.map_some, Option.some.injEq, Prod.mk.injEq] at h
                have hl := lexString_length _ _ _ _ hq
                have h1 := congrArg List.length h.1
                have h2 := congrArg List.length hx
                rw [h.2] at hl
                simp at h1 h2
                omega
            · cases h
        · have hp : Spec.plainName (c :: s) = Spec.plainName s := by
            rw [Spec.plainName.eq_def]
            split
            · rename_i h; cases h
            · rename_i h; cases h; exact absurd rfl hb
            · rename_i h
              cases h
              simp [hb, hq]
          have hi := ih s.length (by simp) s rfl
          rw [hp, List.cons_append, Spec.lexString.eq_def]
          refine Iff.trans ?_ hi
          simp only [hb, hq, if_false]
          cases Spec.lexString '"' (s ++ '"' :: rest) <;> simp [Prod.ext_iff]

theorem Reads.plain {s : Str} {ts : List Spec.Tok} (n : Str) (hn : Spec.plainName n = true) (hs : s.head? ≠ some '"')
    (h : Reads s ts) : Reads ('"' :: (n ++ '"' :: s)) (.str n :: ts) := by
  have hl : Spec.lexString '"' (n ++ '"' :: s) = some (n, s) := by
    have := (C49_literal_partial n s hs).2 hn
    simp only [Spec.lex, List.append_assoc, List.cons_append, List.nil_append, if_true, Option.map_eq_some_iff] at this
    obtain ⟨p, h1, h2⟩ := this
    rw [h1]
    simp only [Prod.mk.injEq, Spec.Token.string.injEq] at h2
    rw [← h2.1, ← h2.2]
  refine Reads.tok (rest := s) (fun d hd => ?_) ?_ (by simp; omega) h
  · cases hd; decide
  · rw [Spec.tok, if_pos rfl, hl]
    rfl

/-- with such a name the statement that records a migration is read as it should be. -/
theorem C49_insert_plain_partial (k : MigKey) (hn : Spec.plainName k.2 = true) :
    Spec.tokens (insertSql k) =
      some (Spec.insertToks k.1.major.toNat k.1.minor.toNat k.1.patch.toNat k.2) := by
  apply Reads.tokens
  unfold insertSql
  simp only [List.append_assoc]
  have h1 : Reads ("\")".toList.tail) [.punct ')'] := .punct ')' (by decide) .nil
  have h2 := Reads.plain k.2 hn (by decide) h1
  have h3 := Reads.fixed ", ".toList (ts := [.punct ',']) (by decide) (by decide) h2
  have h4 := Reads.dec k.1.patch.toNat (by intro d hd; cases hd; decide) h3
  have h5 := Reads.fixed ", ".toList (ts := [.punct ',']) (by decide) (by decide) h4
  have h6 := Reads.dec k.1.minor.toNat (by intro d hd; cases hd; decide) h5
  have h7 := Reads.fixed ", ".toList (ts := [.punct ',']) (by decide) (by decide) h6
  have h8 := Reads.dec k.1.major.toNat (by intro d hd; cases hd; decide) h7
  have h9 := Reads.fixed "insert into `migrations` (`version_0`, `version_1`, `version_2`, `name`) values (".toList
    (ts := [.word "insert".toList, .word "into".toList, .name "migrations".toList, .punct '(',
     .name "version_0".toList, .punct ',', .name "version_1".toList, .punct ',', .name "version_2".toList,
     .punct ',', .name "name".toList, .punct ')', .word "values".toList, .punct '('])
    (by decide +kernel) (by decide +kernel) h8
  exact h9

/-- and the one that removes the record. -/
theorem C49_delete_plain_partial (k : MigKey) (hn : Spec.plainName k.2 = true) :
    Spec.tokens (deleteSql k) =
      some (Spec.deleteToks k.1.major.toNat k.1.minor.toNat k.1.patch.toNat k.2) := by
  apply Reads.tokens
  unfold deleteSql
  simp only [List.append_assoc]
  have h2 := Reads.plain k.2 hn (by decide) .nil
  have h3 := Reads.fixed " and `name` = ".toList (ts := [.word "and".toList, .name "name".toList, .punct '='])
    (by decide +kernel) (by decide) h2
  have h4 := Reads.dec k.1.patch.toNat (by intro d hd; cases hd; decide) h3
  have h5 := Reads.fixed " and `version_2` = ".toList
    (ts := [.word "and".toList, .name "version_2".toList, .punct '=']) (by decide +kernel) (by decide) h4
  have h6 := Reads.dec k.1.minor.toNat (by intro d hd; cases hd; decide) h5
  have h7 := Reads.fixed " and `version_1` = ".toList
    (ts := [.word "and".toList, .name "version_1".toList, .punct '=']) (by decide +kernel) (by decide) h6
  have h8 := Reads.dec k.1.major.toNat (by intro d hd; cases hd; decide) h7
  have h9 := Reads.fixed "delete from `migrations` where `version_0` = ".toList
    (ts := [.word "delete".toList, .word "from".toList, .name "migrations".toList, .word "where".toList,
     .name "version_0".toList, .punct '=']) (by decide +kernel) (by decide +kernel) h8
  exact h9

example : Spec.plainName "100\\% of 'users'".toList = true ∧ Spec.plainName "a\\b".toList = false ∧
    Spec.plainName "say \"hi\"".toList = false := by decide +kernel

end Verif

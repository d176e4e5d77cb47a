import Verif.Model.Migrator
import Verif.Spec.MigSql
import Verif.Proofs.SqlTokens

/-! # C49 — the migrator's bookkeeping statements -/

namespace Verif

/-- The statement that records a migration, as the server reads it.
Missing: names with a double quote or a backslash. -/
theorem C49_insert_partial (k : MigKey) (hq : '"' ∉ k.2) (hb : '\\' ∉ k.2) :
    Spec.tokens (insertSql k) =
      some (Spec.insertToks k.1.major.toNat k.1.minor.toNat k.1.patch.toNat k.2) := by
  apply Reads.tokens
  unfold insertSql
  simp only [List.append_assoc]
  have h1 : Reads ("\")".toList.tail) [.punct ')'] := .punct ')' (by decide) .nil
  have h2 := Reads.str k.2 hq hb (by decide) h1
  have h3 := Reads.fixed ", ".toList (ts := [.punct ',']) (by decide) (by decide) h2
  have h4 := Reads.dec k.1.patch.toNat (by intro d hd; cases hd; decide) h3
  have h5 := Reads.fixed ", ".toList (ts := [.punct ',']) (by decide) (by decide) h4
  have h6 := Reads.dec k.1.minor.toNat (by intro d hd; cases hd; decide) h5
  have h7 := Reads.fixed ", ".toList (ts := [.punct ',']) (by decide) (by decide) h6
  have h8 := Reads.dec k.1.major.toNat (by intro d hd; cases hd; decide) h7
  have h9 := Reads.fixed "insert into `migrations` (`version_0`, `version_1`, `version_2`, `name`) values (".toList
    (ts := [.word "insert".toList, .word "into".toList, .name "migrations".toList, .punct '(',
     .name "version_0".toList, .punct ',', .name "version_1".toList, .punct ',', .name "version_2".toList,
     .punct ',', .name "name".toList, .punct ')', .word "values".toList, .punct '('])
    (by decide +kernel) (by decide +kernel) h8
  exact h9

theorem C49_delete_partial (k : MigKey) (hq : '"' ∉ k.2) (hb : '\\' ∉ k.2) :
    Spec.tokens (deleteSql k) =
      some (Spec.deleteToks k.1.major.toNat k.1.minor.toNat k.1.patch.toNat k.2) := by
  apply Reads.tokens
  unfold deleteSql
  simp only [List.append_assoc]
  have h2 := Reads.str k.2 hq hb (by decide) .nil
  have h3 := Reads.fixed " and `name` = ".toList (ts := [.word "and".toList, .name "name".toList, .punct '='])
    (by decide +kernel) (by decide) h2
  have h4 := Reads.dec k.1.patch.toNat (by intro d hd; cases hd; decide) h3
  have h5 := Reads.fixed " and `version_2` = ".toList
    (ts := [.word "and".toList, .name "version_2".toList, .punct '=']) (by decide +kernel) (by decide) h4
  have h6 := Reads.dec k.1.minor.toNat (by intro d hd; cases hd; decide) h5
  have h7 := Reads.fixed " and `version_1` = ".toList
    (ts := [.word "and".toList, .name "version_1".toList, .punct '=']) (by decide +kernel) (by decide) h6
  have h8 := Reads.dec k.1.major.toNat (by intro d hd; cases hd; decide) h7
  have h9 := Reads.fixed "delete from `migrations` where `version_0` = ".toList
    (ts := [.word "delete".toList, .word "from".toList, .name "migrations".toList, .word "where".toList,
     .name "version_0".toList, .punct '=']) (by decide +kernel) (by decide +kernel) h8
  exact h9

/-- With a quote in the name, removing the record of one migration removes all of them:
`… and name = "x" or "1"`. -/
theorem C49_quote_violated :
    Spec.tokens (deleteSql (⟨1, 2, 3⟩, "x\" or \"1".toList)) =
      some (Spec.deleteToks 1 2 3 ['x'] ++ [.word "or".toList, .str ['1']]) := by decide +kernel

/-- With a backslash, another name is recorded than the one compared with later. -/
theorem C49_backslash_violated :
    Spec.tokens (insertSql (⟨1, 2, 3⟩, "a\\b".toList)) = some (Spec.insertToks 1 2 3 ['a', '\x08']) := by
  decide +kernel

example : Spec.tokens (insertSql (⟨0, 65535, 10⟩, "add 'user' table; drop".toList)) =
    some (Spec.insertToks 0 65535 10 "add 'user' table; drop".toList) := by decide +kernel

end Verif

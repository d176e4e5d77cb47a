import Verif.Spec.SqlTokens

/-! # Spec: the statements about records of migrations -/

namespace Verif

namespace Spec

/-- `insert into migrations (version_0, version_1, version_2, name) values (…)`. -/
def insertToks (a b c : Nat) (name : Str) : List Tok :=
  [.word "insert".toList, .word "into".toList, .name "migrations".toList, .punct '(',
   .name "version_0".toList, .punct ',', .name "version_1".toList, .punct ',', .name "version_2".toList,
   .punct ',', .name "name".toList, .punct ')', .word "values".toList, .punct '(', .num a, .punct ',',
   .num b, .punct ',', .num c, .punct ',', .str name, .punct ')']

/-- `delete from migrations where version_0 = … and … and name = …`. -/
def deleteToks (a b c : Nat) (name : Str) : List Tok :=
  [.word "delete".toList, .word "from".toList, .name "migrations".toList, .word "where".toList,
   .name "version_0".toList, .punct '=', .num a, .word "and".toList, .name "version_1".toList, .punct '=',
   .num b, .word "and".toList, .name "version_2".toList, .punct '=', .num c, .word "and".toList,
   .name "name".toList, .punct '=', .str name]

end Spec

end Verif

import Verif.Spec.MigServer

/-! # Spec: moving a database to a version -/

namespace Verif.Spec.MigServer

variable {W : Type} (S : MigServer W)

/-- first up, then, unless something was refused, down. -/
def moveTo (upSql downSql : MigKey → Str) (w : W) (rows ups downs : List MigKey) : W × List MigKey × Option SqlError :=
  match S.applyAll upSql w rows ups with
  | (w', rows', none) => S.revertAll downSql w' rows' downs
  | (w', rows', some e) => (w', rows', some e)

end Verif.Spec.MigServer

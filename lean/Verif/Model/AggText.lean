import Verif.Model.ExprText
import Verif.Model.Rel
/-!
# The texts of aggregate functions

Models `AggregateFunction.String`, `expr/functions.go:912-929`.
-/

namespace Verif

/-- `AggregateFunction.String`, `expr/functions.go:912-929` -/
def AggFn.string (g : ExprFmt) (f : AggFn) : Res Bytes :=
  f.a.nameText g >>= fun name =>
  EArg.strings g f.args >>= fun as =>
  .ok (name ++ utf8 "(" ++ joinBytes (utf8 ", ") as ++ utf8 ") => " ++ utf8 f.a.outputType.string)

end Verif

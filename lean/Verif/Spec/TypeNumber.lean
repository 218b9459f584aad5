import Verif.Model.TypeText
import Verif.Spec.TypeText
import Verif.Spec.Time
/-!
# Numbers in type expressions
-/

namespace Verif

/-- a type with one number, as in `varchar?<5>` -/
def sizedText (k : Single) (n : Nullability) (i : Int) : String :=
  k.longName ++ strNullable n ++ "<" ++ toString i ++ ">"

/-- `decimal` with two numbers -/
def decimalText (n : Nullability) (p s : Int) : String :=
  "decimal" ++ strNullable n ++ "<" ++ toString p ++ "," ++ toString s ++ ">"

/-- a derivation that gives `y` a number and has the type `t` -/
def constantText (y : String) (i : Int) (t : FTy) : String :=
  y ++ " = " ++ toString i ++ "\n" ++ t.string

end Verif

import Verif.Model.TestCaseAgg
import Verif.Spec.TestCase
import Verif.Spec.FuncCall
/-!
# Specification vocabulary: tables, calls and files of function tests
-/

namespace Verif

/-- A number, a string or null. -/
def TcLit.IsPlain : TcLit → Prop
  | .numeric _ => True
  | .string _ => True
  | .null => True
  | _ => False

/-- The cells of the rows in column `i`. -/
def columnAt {α : Type} (rows : List (List α)) (i : Nat) : List α := rows.filterMap (·[i]?)

/-- The type made nullable when there is a null among the cells. -/
def nullableIf (cells : List TcLit) (t t' : Ty) : Prop :=
  (TcLit.null ∈ cells → t' = t.withNullability 1) ∧ (TcLit.null ∉ cells → t' = t)

/-- The function takes that many arguments. -/
def Variant.TakesCount (v : Variant) (n : Nat) : Prop :=
  v.impl.args.length = n ∨ ∃ w, v.impl.variadic = some w ∧ w.validCount n = true

/-- the test cases with the descriptions of their groups, in the order of the file -/
def TcDoc.allCases (d : TcDoc) : List (Option String × TcCase) :=
  d.groups.flatMap fun g => g.cases.map fun c => (g.description, c)

/-- the name of the function -/
def TcCall.name : TcCall → String
  | .scalar n _ => n
  | .table _ _ _ n _ => n
  | .compact _ n _ => n
  | .column n _ _ => n

end Verif

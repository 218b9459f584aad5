import Verif.Spec.Plan
/-!
# Scalar expressions
-/

namespace Verif

/-- calls of window functions and lambdas -/
inductive Expr.NonScalar : Expr → Prop
  | window (a w args sorts parts) : Expr.NonScalar (.window a w args sorts parts)
  | lambda (n v ps b) : Expr.NonScalar (.lambda n v ps b)

/-- one of them is the expression or occurs in it -/
def Expr.HasNonScalar (e : Expr) : Prop := ∃ x, Expr.Within x e ∧ x.NonScalar

/-- No field is taken from the value of an expression. -/
def Expr.NoExprRoots (e : Expr) : Prop := ∀ x, Expr.Within x e → ∀ r ref k, x ≠ .fieldRef (.expr r) ref k

end Verif

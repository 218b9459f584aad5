import Verif.Model.Extended
import Verif.Spec.RelProto
import Verif.Spec.ExtSet
/-!
# Vocabulary for extended expressions
-/

namespace Verif

/-- References made with the constructors and changed with the setters. -/
inductive ExprRef.Made : ExprRef → Prop
  | ofExpr (names e) : ExprRef.Made (.ofExpr names e)
  | ofMeasure (names f) : ExprRef.Made (.ofMeasure names f)
  | setExpr (r e) : ExprRef.Made r → ExprRef.Made (r.setExpr e)
  | setMeasure (r f) : ExprRef.Made r → ExprRef.Made (r.setMeasure f)

/-- A reference that can be carried: one of expression and measure at most, and what is there can be carried. -/
def ExprRef.Sendable (reg : Reg) (base : Option (List Ty)) (r : ExprRef) : Prop :=
  (r.expr = .nil ∨ r.expr.Sendable reg base ∧ r.measure = none) ∧
  ∀ f, r.measure = some f → f.DeclaredIn reg ∧ f.a.outputType.Sendable ∧ EArg.SendableList reg base f.args ∧
    ESort.SendableList reg base f.sorts

end Verif

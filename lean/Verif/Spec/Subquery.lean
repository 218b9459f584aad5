import Verif.Model.Expr
/-!
# Subqueries that make sense
-/

namespace Verif

/-- A subquery that makes sense: a scalar subquery has one column; IN compares with each column one expression,
and there is one; EXISTS and UNIQUE say which of them they are; ANY and ALL say which and how to compare, and the
expression is compared with one column. -/
inductive Expr.GoodSubquery : Expr → Prop
  | scalar (r : RelRef) (t : Ty) : r.types = [t] → Expr.GoodSubquery (.scalarSubquery r)
  | inPredicate (ns : List Expr) (h : RelRef) : ns ≠ [] → (∀ n ∈ ns, n ≠ .nil) → ns.length = h.types.length →
      Expr.GoodSubquery (.inPredicate ns h)
  | setPredicate (op : Int32) (r : RelRef) : op ≠ 0 → Expr.GoodSubquery (.setPredicate op r)
  | setComparison (red cmp : Int32) (l : Expr) (r : RelRef) (t : Ty) : red ≠ 0 → cmp ≠ 0 → l ≠ .nil → r.types = [t] →
      Expr.GoodSubquery (.setComparison red cmp l (some r))

end Verif

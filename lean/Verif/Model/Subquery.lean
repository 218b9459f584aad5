import Verif.Model.Expr
import Verif.Model.Rel
/-!
# The builders of subqueries
-/

namespace Verif

/-- `InPredicateSubquery`, `plan/builders.go:949-974`; a nil relation is `none`. Simplification: a relation is
given by its address and its columns, so its `RecordType()` does not panic. -/
def buildInPredicate (needles : List Expr) (haystack : Option RelRef) : Res Expr :=
  match haystack with
  | none => .err
  | some h =>
      if needles.length = 0 then .err
      else if needles.any Expr.isNil then .err
      else if (needles.length : Int) ≠ (fieldCount h.types).toInt then .err
      else .ok (.inPredicate needles h)

/-- `SetPredicateSubquery`, `plan/builders.go:978-991`; `SetPredicateOpUnspecified` is 0 -/
def buildSetPredicate (input : Option RelRef) (op : Int32) : Res Expr :=
  match input with
  | none => .err
  | some r => if op = 0 then .err else .ok (.setPredicate op r)

/-- `ScalarSubquery`, `plan/builders.go:993-999` -/
def buildScalarSubquery (input : Option RelRef) : Res Expr :=
  match input with
  | none => .err
  | some r => .ok (.scalarSubquery r)

/-- `SetComparisonSubquery`, `plan/builders.go:1005-1031`; the unspecified operations are 0 -/
def buildSetComparison (left : Expr) (right : Option RelRef) (reduction comparison : Int32) : Res Expr :=
  if reduction = 0 then .err
  else if comparison = 0 then .err
  else if left.isNil then .err
  else
    match right with
    | none => .err
    | some r => .ok (.setComparison reduction comparison left (some r))

end Verif

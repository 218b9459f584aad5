import Verif.Model.Expr
/-!
# `IsScalar`
-/

namespace Verif

mutual
/-- The `IsScalar` methods: literals `expr/literals.go:108,239,336,414,484,698`,
`expr/interval_compound_literal.go:113`, `expr/interval_year_to_month.go:71`; field references
`expr/field_reference.go:760`; `expr/expression.go:531-541,638-640,697,837-853,1013-1025,1128-1144,1289-1297,1416-1423,1535-1542`;
function calls `expr/functions.go:306-315,554`; `expr/lambda.go:33-35`; subqueries
`plan/subquery.go:95,175-182,296,418-420`. A call on the nil interface panics; the parts of a conditional and the
default of a switch are tested for nil first. -/
def Expr.isScalar : Expr → Res Bool
  | .nil => .panic
  | .lit _ => .ok true
  | .fieldRef .. => .ok true
  | .ifThen ifs els => EPair.optScalarLoop ifs >>= fun b => if b then (if els.isNil then .ok true else els.isScalar) else .ok false
  | .cast _ input _ => input.isScalar
  | .dynParam .. => .ok true
  | .switch m cs els =>
      m.isScalar >>= fun b =>
      if b then ECase.scalarLoop cs >>= fun b => if b then (if els.isNil then .ok true else els.isScalar) else .ok false else .ok false
  | .singularOr v os => v.isScalar >>= fun b => if b then Expr.scalarLoop os else .ok false
  | .multiOr vs rows => Expr.scalarLoop vs >>= fun b => if b then ERow.scalarLoop rows else .ok false
  | .mapE _ _ kvs => EPair.scalarLoop kvs
  | .structE _ _ es => Expr.scalarLoop es
  | .listE _ _ es => Expr.scalarLoop es
  | .scalar _ args => EArg.scalarLoop args
  | .window .. => .ok false
  | .lambda .. => .ok false
  | .scalarSubquery _ => .ok true
  | .inPredicate ns _ => Expr.scalarLoop ns
  | .setPredicate .. => .ok true
  | .setComparison _ _ l _ => l.isScalar
/-- the loops over expressions, `expr/expression.go:1018-1022,1129-1133,1136-1140,1417-1421,1536-1540`,
`plan/subquery.go:176-180` -/
def Expr.scalarLoop : List Expr → Res Bool
  | [] => .ok true
  | e :: es => e.isScalar >>= fun b => if b then Expr.scalarLoop es else .ok false
/-- the loop over the clauses of a conditional, `expr/expression.go:532-539` -/
def EPair.optScalarLoop : List EPair → Res Bool
  | [] => .ok true
  | .mk a b :: ps =>
      (if a.isNil then .ok true else a.isScalar) >>= fun r =>
      if r then (if b.isNil then .ok true else b.isScalar) >>= fun r =>
        if r then EPair.optScalarLoop ps else .ok false
      else .ok false
/-- the loop over the entries of a map, `expr/expression.go:1290-1294` -/
def EPair.scalarLoop : List EPair → Res Bool
  | [] => .ok true
  | .mk a b :: ps =>
      a.isScalar >>= fun r => if r then b.isScalar >>= fun r => if r then EPair.scalarLoop ps else .ok false
        else .ok false
/-- the loop over the cases of a switch, `expr/expression.go:842-846` -/
def ECase.scalarLoop : List ECase → Res Bool
  | [] => .ok true
  | .mk _ e :: cs => e.isScalar >>= fun b => if b then ECase.scalarLoop cs else .ok false
/-- the loops over the options of a multi-or-list, `expr/expression.go:1135-1141` -/
def ERow.scalarLoop : List ERow → Res Bool
  | [] => .ok true
  | .mk es :: rs => Expr.scalarLoop es >>= fun b => if b then ERow.scalarLoop rs else .ok false
/-- the loop over the arguments, `expr/functions.go:307-313` -/
def EArg.scalarLoop : List EArg → Res Bool
  | [] => .ok true
  | .expr e :: as => e.isScalar >>= fun b => if b then EArg.scalarLoop as else .ok false
  | _ :: as => EArg.scalarLoop as
end

end Verif

import Verif.Model.LocalTypes
/-!
# The text of type expressions

Models the `String` methods of the `FuncDefArgType` implementations and of the expressions of derivations.
-/

namespace Verif

/-- `BaseString` of the type of a single-parameter type, `types/parameterized_single_integer_param_type.go:38-46`,
`types/types.go:1045-1048`, `types/interval_day_type.go:62-64`,
`types/precison_timestamp_types.go:142-144,217-219,299-301` -/
def Single.longName : Single → String
  | .fixed k => k.longName
  | .prec k => k.longName

/-- `BinaryOp.String`, `types/type_derivation.go:45-73`; it panics for other values, and `fmt.Sprintf`, its
only caller (`types/type_derivation.go:154`), writes the panic into the text -/
def DOp.str : DOp → String
  | .plus => "+"
  | .minus => "-"
  | .multiply => "*"
  | .divide => "/"
  | .lt => "<"
  | .lte => "<="
  | .gt => ">"
  | .gte => ">="
  | .eq => "="
  | .neq => "!="
  | .and => "and"
  | .or => "or"
  | .unknown => "%!s(PANIC=String method: Invalid binary operator)"

mutual
/-- The pieces that the `String` methods of expressions write,
`types/type_derivation.go:23-25,153-155,164-169,186-188,203-215`, `types/types.go:1559-1561` -/
def DExpr.pieces : DExpr → List String
  | .num v => [intString v.toInt]
  | .name s => [s]
  | .bin op l r => ["("] ++ l.pieces ++ [" ", op.str, " "] ++ r.pieces ++ [")"]
  | .ite true c t e => c.pieces ++ [" ? "] ++ t.pieces ++ [" : "] ++ e.pieces
  | .ite false c t e => ["if "] ++ c.pieces ++ [" then "] ++ t.pieces ++ [" else "] ++ e.pieces
  | .not e => ["!"] ++ e.pieces
  | .call f args => [f, "("] ++ DExpr.piecesList args ++ [")"]
/-- the loop `types/type_derivation.go:207-212` -/
def DExpr.piecesList : List DExpr → List String
  | [] => []
  | e :: es => e.pieces ++ DExpr.piecesRest es
/-- the iterations of the loop after the first, each with the separator written before it,
`types/type_derivation.go:207-212` -/
def DExpr.piecesRest : List DExpr → List String
  | [] => []
  | e :: es => [", "] ++ e.pieces ++ DExpr.piecesRest es
end

/-- `String` of expressions, see `DExpr.pieces` -/
def DExpr.string (e : DExpr) : String := joined e.pieces

/-- the loop over the assignments, `types/type_derivation.go:255-257,270-273` -/
def assignmentPieces : List (String × DExpr) → List String
  | [] => []
  | (x, e) :: as => [x, " = "] ++ e.pieces ++ ["\n"] ++ assignmentPieces as

mutual
/-- The pieces that the `String` methods write one after the other, `types/types.go:597-599,915-921`,
`types/any_type.go:23-25`, `types/parameterized_single_integer_param_type.go:30-36`,
`types/parameterized_decimal_type.go:25-29`, `types/parameterized_list_type.go:24-28`,
`types/parameterized_map_type.go:23-27`, `types/parameterized_struct_type.go:23-34`,
`types/parameterized_func_type.go:25-40`, `types/parameterized_user_defined_type.go:120-133`,
`types/type_derivation.go:269-276` -/
def FTy.pieces : FTy → List String
  | .prim k n _ => [k.longName, strNullable n]
  | .any n name => [name, strNullable n]
  | .enum _ _ _ name _ => [name]
  | .single k n p => [k.longName, strNullable n, "<", p.str, ">"]
  | .decimal n p s => ["decimal", strNullable n, "<", p.str, ",", s.str, ">"]
  | .list n t => ["list", strNullable n, "<"] ++ t.pieces ++ [">"]
  | .map n k v => ["map", strNullable n, "<"] ++ k.pieces ++ [", "] ++ v.pieces ++ [">"]
  | .struct n ts => ["struct", strNullable n, "<"] ++ FTy.piecesList ts ++ [">"]
  | .func n ps r => ["func", strNullable n, "<"] ++ FTy.piecesList ps ++ [" -> "] ++ r.pieces ++ [">"]
  | .udt n _ name [] => ["u!", name, strNullable n]
  | .udt n _ name (p :: ps) =>
      ["u!", name, strNullable n, "<"] ++ (p.pieces ++ FParam.piecesRest ps) ++ [">"]
  | .derivation as t => assignmentPieces as ++ t.pieces
/-- the loops `types/parameterized_struct_type.go:25-30`, `types/parameterized_func_type.go:30-35` -/
def FTy.piecesList : List FTy → List String
  | [] => []
  | t :: ts => t.pieces ++ FTy.piecesRest ts
/-- the iterations of these loops after the first, `types/parameterized_struct_type.go:25-30`,
`types/parameterized_func_type.go:30-35` -/
def FTy.piecesRest : List FTy → List String
  | [] => []
  | t :: ts => [", "] ++ t.pieces ++ FTy.piecesRest ts
/-- `String` of parameters of user-defined types, `types/parameterized_user_defined_type.go:24-26,62-64,87-89` -/
def FParam.pieces : FParam → List String
  | .dataType t => t.pieces
  | .integer i => [intString i.toInt]
  | .string s => [s]
/-- the iterations of the loop `types/parameterized_user_defined_type.go:124-129` after the first -/
def FParam.piecesRest : List FParam → List String
  | [] => []
  | p :: ps => [", "] ++ p.pieces ++ FParam.piecesRest ps
end

/-- `String` methods, see `FTy.pieces` -/
def FTy.string (t : FTy) : String := joined t.pieces

end Verif

import Verif.Model.RefText
/-!
# The texts of expressions

Models the `String` methods of expressions: `expr/expression.go:503-519,625-628,683-685,808-825,989-1001,1092-1116,
1258-1277,1390-1405,1509-1524`, `expr/functions.go:107-109,119-121,131-133,142-144,319-354,558-620`, `expr/lambda.go:17-29`,
`plan/subquery.go:91-93,155-173,283-294,386-416`, `types/types.go:194,200,1688`.

The methods write some of their parts with direct calls of `String`, which panic on nil, and others with the verb `%s`
of `fmt`, which writes a note in place of a part that is nil or panics.
-/

namespace Verif

/-- What `fmt` and generated code write (external): the names of enum values, relations (`%s` of a pointer to a struct
that need not have a `String` method), the preferences of an option (`%v`), and the note in place of an expression that
is nil or whose `String` panics. `name` is the plain name of a function from its compound name
(`extensions/variants.go`, see `FuncName`). -/
structure ExprFmt where
  lit : TcFmt
  name : String → Bytes
  castFail : Int32 → Bytes
  direction : Int32 → Bytes
  phase : Int32 → Bytes
  invocation : Int32 → Bytes
  prefs : List String → Bytes
  rel : Option RelRef → Bytes
  caught : Expr → Bytes

/-- an expression under the verb `%s` of `fmt` (external): `fmt` catches panics -/
def ExprFmt.shown (g : ExprFmt) (x : Expr) : Res Bytes → Bytes
  | .ok s => s
  | _ => g.caught x

/-- `s.declaration.Name()`, `expr/functions.go:297,322,535,561`; a nil declaration (`""`) is dereferenced -/
def FnAttrs.nameText (g : ExprFmt) (a : FnAttrs) : Res Bytes :=
  if a.declaration = "" then .panic else .ok (g.name a.declaration)

/-- `String` of sort kinds, `types/types.go:194,200`; called on the interface in `expr/functions.go:577` -/
def SortKind.text (g : ExprFmt) : SortKind → Res Bytes
  | .nil => .panic
  | .direction d => .ok (g.direction d)
  | .func ref => .ok (utf8 "comparison_func_ref: " ++ intText ref.toNat)

/-- `String` of bounds, `expr/functions.go:107-109,119-121,131-133,142-144` -/
def Bound.text : Bound → Bytes
  | .preceding n => intText n.toInt ++ utf8 " PRECEDING"
  | .following n => intText n.toInt ++ utf8 " FOLLOWING"
  | .currentRow => utf8 "CURRENT ROW"
  | .unbounded => utf8 "UNBOUNDED"

/-- `expr/functions.go:604-614` -/
def boundsText : Option Bound → Option Bound → Bytes
  | none, none => []
  | some l, none => utf8 "; bounds: [" ++ l.text ++ utf8 "]"
  | none, some u => utf8 "; bounds: [" ++ utf8 ", " ++ u.text ++ utf8 "]"
  | some l, some u => utf8 "; bounds: [" ++ l.text ++ utf8 ", " ++ u.text ++ utf8 "]"

/-- `expr/functions.go:332-344` -/
def scalarOptionsText (os : List (String × List String)) : Bytes :=
  if os = [] then [] else
    utf8 ", {" ++ joinBytes (utf8 ", ")
      (os.map fun o => utf8 o.1 ++ utf8 ": [" ++ joinBytes (utf8 ",") (o.2.map utf8) ++ utf8 "]") ++ utf8 "}"

/-- `expr/functions.go:582-591` -/
def windowOptionsText (g : ExprFmt) (os : List (String × List String)) : Bytes :=
  if os = [] then [] else
    utf8 "; [options: {" ++ joinBytes (utf8 ", ") (os.map fun o => utf8 o.1 ++ utf8 " => " ++ g.prefs o.2) ++ utf8 "}]"

/-- `expr/functions.go:571-580` -/
def sortsText (ss : List Bytes) : Bytes :=
  if ss = [] then [] else utf8 "; sort: [" ++ joinBytes (utf8 ",") ss ++ utf8 "]"

/-- `expr/functions.go:593-602` -/
def partitionsText (ps : List Bytes) : Bytes :=
  if ps = [] then [] else utf8 "; partitions: [" ++ joinBytes (utf8 ", ") ps ++ utf8 "]"

/-- the end of nested values, `expr/expression.go:1271-1276,1399-1404,1518-1523` -/
def nestedEnd (nullable : Bool) (variation : UInt32) : Bytes :=
  (if nullable then utf8 "?" else []) ++ utf8 "(typeref=" ++ intText variation.toNat ++ utf8 ")"

/-- `writeList`, `expr/expression.go:1094-1103` -/
def listText (vs : List Bytes) : Bytes := utf8 "[" ++ joinBytes (utf8 ", ") vs ++ utf8 "]"

/-- the parameters of a lambda from number `i` on, `expr/lambda.go:20-25` -/
def paramTexts (i : Nat) : List Ty → List Bytes
  | [] => []
  | t :: ts => (utf8 "$" ++ intText i ++ utf8 ": " ++ utf8 t.string) :: paramTexts (i + 1) ts

/-- the needles, `plan/subquery.go:157-168`; a single one without parentheses -/
def needlesText : List Bytes → Bytes
  | [n] => n
  | ns => utf8 "(" ++ joinBytes (utf8 ", ") ns ++ utf8 ")"

/-- `plan/subquery.go:284-292`; 1 is EXISTS and 2 is UNIQUE in the protocol -/
def predicateText (op : Int32) : Bytes :=
  if op = 1 then utf8 "EXISTS" else if op = 2 then utf8 "UNIQUE" else utf8 "UNKNOWN"

/-- `plan/subquery.go:389-396`; 1 is ANY and 2 is ALL in the protocol -/
def reductionText (op : Int32) : Bytes :=
  if op = 1 then utf8 "ANY" else if op = 2 then utf8 "ALL" else utf8 "UNKNOWN"

/-- `plan/subquery.go:398-413`; the protocol numbers the comparisons from 1 in this order -/
def comparisonText (op : Int32) : Bytes :=
  if op = 1 then utf8 "=" else if op = 2 then utf8 "!=" else if op = 3 then utf8 "<" else if op = 4 then utf8 ">"
  else if op = 5 then utf8 "<=" else if op = 6 then utf8 ">=" else utf8 "?"

/-- the text of a path, `expr/field_reference.go:635-640`, see `fieldRefString` -/
def refText (f : TcFmt) (ref : ERef) (known : Option Ty) (r : Bytes) : Res Bytes :=
  match ref with
  | .seg s => s.string f >>= fun s => .ok (r ++ s ++ (match known with
      | some t => [32, 61, 62, 32] ++ utf8 t.string
      | none => []))
  | .nil => .panic
  | .mask _ => .panic

mutual
/-- `String` of expressions; the lines are cited in each case. -/
def Expr.string (g : ExprFmt) : Expr → Res Bytes
  /- a call on a nil interface -/
  | .nil => .panic
  | .lit l => l.string g.lit
  /- `expr/field_reference.go:624-641` -/
  | .fieldRef root ref known => ERoot.text g root >>= refText g.lit ref known
  /- `expr/expression.go:503-519` -/
  | .ifThen ifs els =>
      EPair.strings g ifs >>= fun ps =>
      (match els with | .nil => .ok [] | els => Expr.string g els) >>= fun e =>
      .ok (utf8 "<IfThen>(" ++ joinBytes (utf8 ": ") (ps.map fun p => utf8 "(" ++ p.1 ++ utf8 ") ?" ++ p.2)
        ++ utf8 ")<Else>(" ++ e ++ utf8 ")")
  /- `expr/expression.go:625-628` -/
  | .cast ty input fail =>
      .ok (utf8 "cast(" ++ g.shown input (Expr.string g input) ++ utf8 " AS " ++ utf8 ty.string ++ utf8 ", fail: "
        ++ g.castFail fail ++ utf8 ")")
  /- `expr/expression.go:683-685` -/
  | .dynParam ty ref => .ok (utf8 "$" ++ intText ref.toNat ++ utf8 ":" ++ utf8 ty.string)
  /- `expr/expression.go:808-825` -/
  | .switch m cs els =>
      Expr.string g m >>= fun m =>
      ECase.strings g cs >>= fun cs =>
      (match els with | .nil => .ok [] | els => Expr.string g els >>= fun e => .ok (utf8 "Else " ++ e)) >>= fun e =>
      .ok (utf8 "CASE " ++ m ++ utf8 ":"
        ++ cs.flatMap (fun c => utf8 "\nWHEN " ++ c.1 ++ utf8 " THEN " ++ c.2 ++ utf8 ";") ++ e)
  /- `expr/expression.go:989-1001` -/
  | .singularOr v os =>
      Expr.string g v >>= fun v =>
      Expr.strings g os >>= fun os => .ok (v ++ utf8 " IN [" ++ joinBytes (utf8 ",") os ++ utf8 "]")
  /- `expr/expression.go:1092-1116` -/
  | .multiOr vs os =>
      Expr.strings g vs >>= fun vs =>
      ERow.strings g os >>= fun os =>
      .ok (listText vs ++ utf8 " IN [" ++ joinBytes (utf8 ", ") (os.map listText) ++ utf8 "]")
  /- `expr/expression.go:1258-1277` -/
  | .mapE n v kvs =>
      EPair.strings g kvs >>= fun ps =>
      .ok (utf8 "{" ++ joinBytes (utf8 ", ") (ps.map fun p => p.1 ++ utf8 " => " ++ p.2) ++ utf8 "}" ++ nestedEnd n v)
  /- `expr/expression.go:1390-1405` -/
  | .structE n v es =>
      Expr.strings g es >>= fun es =>
      .ok (utf8 "{" ++ joinBytes (utf8 ", ") es ++ utf8 "}" ++ nestedEnd n v)
  /- `expr/expression.go:1509-1524` -/
  | .listE n v es =>
      Expr.strings g es >>= fun es => .ok (listText es ++ nestedEnd n v)
  /- `expr/functions.go:319-354` -/
  | .scalar a args =>
      a.nameText g >>= fun name =>
      EArg.strings g args >>= fun as =>
      .ok (name ++ utf8 "(" ++ joinBytes (utf8 ", ") as ++ scalarOptionsText a.options ++ utf8 ") => "
        ++ utf8 a.outputType.string)
  /- `expr/functions.go:558-620` -/
  | .window a w args sorts parts =>
      a.nameText g >>= fun name =>
      EArg.strings g args >>= fun as =>
      ESort.strings g sorts >>= fun ss =>
      Expr.strings g parts >>= fun ps =>
      .ok (name ++ utf8 "(" ++ joinBytes (utf8 ", ") as ++ sortsText ss ++ windowOptionsText g a.options
        ++ partitionsText ps ++ boundsText w.lower w.upper ++ utf8 "; phase: " ++ g.phase w.phase
        ++ utf8 ", invocation: " ++ g.invocation w.invocation ++ utf8 ") => " ++ utf8 a.outputType.string)
  /- `expr/lambda.go:17-29` -/
  | .lambda _ _ params body =>
      Expr.string g body >>= fun b =>
      .ok (utf8 "(" ++ joinBytes (utf8 ", ") (paramTexts 0 params) ++ utf8 ") -> " ++ b)
  /- `plan/subquery.go:91-93` -/
  | .scalarSubquery r => .ok (utf8 "SCALAR_SUBQUERY(" ++ g.rel (some r) ++ utf8 ")")
  /- `plan/subquery.go:155-173` -/
  | .inPredicate ns r =>
      Expr.strings g ns >>= fun ns => .ok (needlesText ns ++ utf8 " IN (" ++ g.rel (some r) ++ utf8 ")")
  /- `plan/subquery.go:283-294` -/
  | .setPredicate op r => .ok (predicateText op ++ utf8 "(" ++ g.rel (some r) ++ utf8 ")")
  /- `plan/subquery.go:386-416` -/
  | .setComparison red cmp l r =>
      .ok (g.shown l (Expr.string g l) ++ utf8 " " ++ comparisonText cmp ++ utf8 " " ++ reductionText red ++ utf8 "("
        ++ g.rel r ++ utf8 ")")
/-- the root of a reference, `expr/field_reference.go:625-634`, see `ERoot.string` -/
def ERoot.text (g : ExprFmt) : ERoot → Res Bytes
  | .rootReference => .ok []
  | .outer n => .ok ([91, 111, 117, 116, 101, 114, 82, 101, 102, 58] ++ intText n.toNat ++ [93])
  | .lambdaParam n =>
      .ok ([91, 108, 97, 109, 98, 100, 97, 80, 97, 114, 97, 109, 82, 101, 102, 58] ++ intText n.toNat ++ [93])
  | .expr .nil => .ok []
  | .expr x => Expr.string g x >>= fun s => .ok ([91, 114, 111, 111, 116, 58, 40] ++ s ++ [41, 93])
/-- the loops over expressions, `expr/expression.go:993-998,1096-1101,1393-1398,1512-1517`,
`expr/functions.go:595-600`, `plan/subquery.go:161-166` -/
def Expr.strings (g : ExprFmt) : List Expr → Res (List Bytes)
  | [] => .ok []
  | e :: es => Expr.string g e >>= fun s => Expr.strings g es >>= fun r => .ok (s :: r)
/-- the loops over pairs, `expr/expression.go:506-512,1262-1269` -/
def EPair.strings (g : ExprFmt) : List EPair → Res (List (Bytes × Bytes))
  | [] => .ok []
  | .mk a b :: ps =>
      Expr.string g a >>= fun a => Expr.string g b >>= fun b => EPair.strings g ps >>= fun r => .ok ((a, b) :: r)
/-- the loop over cases, `expr/expression.go:813-819` -/
def ECase.strings (g : ExprFmt) : List ECase → Res (List (Bytes × Bytes))
  | [] => .ok []
  | .mk l b :: ps =>
      l.string g.lit >>= fun a => Expr.string g b >>= fun b => ECase.strings g ps >>= fun r => .ok ((a, b) :: r)
/-- the loop over options, `expr/expression.go:1107-1112` -/
def ERow.strings (g : ExprFmt) : List ERow → Res (List (List Bytes))
  | [] => .ok []
  | .mk es :: rs => Expr.strings g es >>= fun es => ERow.strings g rs >>= fun r => .ok (es :: r)
/-- the loops over arguments, `expr/functions.go:325-330,564-569`; the arguments' `String`: expressions as above, types,
and `types/types.go:1688` -/
def EArg.strings (g : ExprFmt) : List EArg → Res (List Bytes)
  | [] => .ok []
  | .nil :: _ => .panic
  | .expr e :: as => Expr.string g e >>= fun s => EArg.strings g as >>= fun r => .ok (s :: r)
  | .type t :: as => EArg.strings g as >>= fun r => .ok (utf8 t.string :: r)
  | .enum s :: as => EArg.strings g as >>= fun r => .ok (utf8 s :: r)
/-- the loop over sort fields, `expr/functions.go:573-578` -/
def ESort.strings (g : ExprFmt) : List ESort → Res (List Bytes)
  | [] => .ok []
  | .mk e k :: ss =>
      k.text g >>= fun k => ESort.strings g ss >>= fun r =>
      .ok ((utf8 "{expr: " ++ g.shown e (Expr.string g e) ++ utf8 ", " ++ k ++ utf8 "}") :: r)
end

end Verif

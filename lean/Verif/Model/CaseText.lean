import Verif.Model.TestPrint
import Verif.Model.TestCaseAgg
/-!
# Printing of whole test cases

Models `TestCase.String` and what it uses (`testcases/parser/nodes.go:83-92,137-240,457-466,511-520`).
-/

namespace Verif

/-- The bytes of a Go string, which is UTF-8; used for `testcases/parser/nodes.go:150,172` -/
def utf8 (s : String) : Bytes := s.toUTF8.data.toList

/-- `CaseLiteral.String`, `testcases/parser/nodes.go:44-53`, as one text -/
def CaseLit.text (f : TcFmt) (c : CaseLit) : Res Bytes :=
  c.string f >>= fun s => .ok (s.1 ++ [58, 58] ++ utf8 s.2)

/-- `TestCaseResult.String`, `testcases/parser/nodes.go:44-53,511-520` -/
def CaseResult.text (f : TcFmt) : CaseResult → Res Bytes
  | .value c => c.text f
  | .error => .ok (utf8 "<!ERROR>")
  | .undefined => .ok (utf8 "<!UNDEFINED>")

/-- `getOptionString`, `testcases/parser/nodes.go:227-240`: the map is ranged over, `entries` are its entries in the
order in which they come. -/
def optionText (entries : List (String × String)) : Bytes :=
  if entries.length = 0 then []
  else [32, 91] ++ joinBytes [44] (entries.map fun e => utf8 e.1 ++ [58] ++ utf8 e.2) ++ [93]

/-- `getScalarTestString`, `testcases/parser/nodes.go:148-163` -/
def TestCase.scalarText (f : TcFmt) (tc : TestCase) (entries : List (String × String)) : Res Bytes :=
  Res.mapL (CaseLit.text f) tc.args >>= fun as => tc.result.text f >>= fun r =>
  .ok (utf8 tc.funcName ++ [40] ++ joinBytes [44, 32] as ++ [41] ++ optionText entries ++ [32, 61, 32] ++ r)

/-- `AsAggregateArgumentString`, `testcases/parser/nodes.go:83-92`. The original text of a literal is not kept in the
model; for arguments that are no lists, which no file yields, `f.other` stands for it. -/
def CaseLit.aggregateText (f : TcFmt) (c : CaseLit) : Res Bytes :=
  match c.value with
  | .lit (.list vs _) =>
      Res.mapL (literalToString f) vs >>= fun es =>
      .ok ([40] ++ joinBytes [44, 32] es ++ [41, 58, 58] ++ utf8 c.type.string)
  | .lit l => .ok (f.other l ++ [58, 58] ++ utf8 c.type.string)
  | .enum name => .ok (name ++ [58, 58] ++ utf8 c.type.string)

/-- `AggregateArgument.String`, `testcases/parser/nodes.go:457-466`; nil arguments and types panic -/
def AggArg.text (f : TcFmt) (a : AggArg) : Res Bytes :=
  if a.isScalar then
    match a.argument with
    | some c => c.text f
    | none => .panic
  else if a.columnName = [] then
    match a.argument with
    | some c => c.aggregateText f
    | none => .panic
  else
    match a.columnType with
    | some t => .ok (a.columnName ++ [58, 58] ++ utf8 t.string)
    | none => .panic

/-- `needCompactAggregateFuncCall`, `testcases/parser/nodes.go:187-201` -/
def TestCase.needCompact (tc : TestCase) : Bool :=
  if tc.funcType = .scalar then false
  else if tc.aggregateArgs.length = 0 then true
  else tc.aggregateArgs.any fun a => a.isScalar || !a.columnName.isEmpty

/-- one row of `getAggregateFuncTableString`, `testcases/parser/nodes.go:214-221` -/
def tableRowText (f : TcFmt) (columns : List (List Lit × Option Ty)) (i : Nat) : Res Bytes :=
  Res.mapL (fun c => Res.index c.1 i >>= literalToString f) columns >>= fun cells =>
  .ok ([40] ++ joinBytes [44, 32] cells ++ [41])

/-- `getAggregateFuncTableString`, `testcases/parser/nodes.go:203-225` -/
def TestCase.tableText (f : TcFmt) (tc : TestCase) : Res Bytes :=
  match tc.columns with
  | [] => .ok []
  | c :: cs =>
      Res.mapL (tableRowText f (c :: cs)) (List.range c.1.length) >>= fun rows =>
      .ok ([40] ++ joinBytes [44, 32] rows ++ [41])

/-- `getAggregateTestString`, `testcases/parser/nodes.go:165-185` -/
def TestCase.aggregateText (f : TcFmt) (tc : TestCase) (entries : List (String × String)) : Res Bytes :=
  (if tc.needCompact then tc.tableText f >>= fun t => .ok (t ++ [32]) else .ok []) >>= fun table =>
  Res.mapL (AggArg.text f) tc.aggregateArgs >>= fun as => tc.result.text f >>= fun r =>
  .ok (table ++ utf8 tc.funcName ++ [40] ++ joinBytes [44, 32] as ++ [41] ++ optionText entries ++ [32, 61, 32] ++ r)

/-- `TestCase.String`, `testcases/parser/nodes.go:137-146`; `entries` are the options in the order in which Go ranges
over the map -/
def TestCase.text (f : TcFmt) (tc : TestCase) (entries : List (String × String)) : Res Bytes :=
  match tc.funcType with
  | .scalar => tc.scalarText f entries
  | .aggregate => tc.aggregateText f entries

end Verif

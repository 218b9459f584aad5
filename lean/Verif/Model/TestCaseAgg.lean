import Verif.Model.TestCase
import Verif.Model.FuncCall
import Verif.Model.Dialect
/-!
# Function test files: test cases, tables, invocations

Continues `Model/TestCase.lean` with test cases of scalar and aggregate functions, the test file, and the
calls built from test cases (`testcases/parser/nodes.go`). Names and descriptions are strings, literals
are byte strings. The description of a group is the trimmed text (`testcases/parser/visitor.go:338-340`).
-/

namespace Verif

/-! ## Results -/

/-- A parsed result: a typed value, `<!ERROR>` or `<!UNDEFINED>` -/
inductive TcResult where
  | value (a : TcArg)
  | error
  | undefined

/-- `TestCaseResult`, `testcases/parser/nodes.go:23-29,497-509` -/
inductive CaseResult where
  | value (c : CaseLit)
  | error
  | undefined

/-- `VisitResult`, `VisitSubstraitError`, `testcases/parser/visitor.go:895-916` -/
def visitResult (x : TcExt) : TcResult → Res CaseResult
  | .value a => visitTypedArgument x a >>= fun c => .ok (.value c)
  | .error => .ok .error
  | .undefined => .ok .undefined

/-! ## Arguments of aggregate functions -/

/-- `AggregateArgument`, `testcases/parser/nodes.go:449-456` -/
structure AggArg where
  argument : Option CaseLit
  tableName : String
  columnName : Bytes
  columnType : Option Ty
  columnIndex : Int32
  isScalar : Bool

/-- `newAggregateArgument`, `testcases/parser/nodes.go:475-489`. The token of a column name is `col` with
digits behind it, so the slice `columnName[3:]` exists. -/
def newAggregateArgument (tableName : String) (columnName : Bytes) (columnType : Option Ty) : Res AggArg :=
  atoi (columnName.drop 3) >>= fun index =>
  if index < 0 then .err
  else .ok ⟨none, tableName, columnName, columnType, Int32.ofInt index, false⟩

/-- A parsed argument `col1::i32` or scalar argument -/
inductive TcColArg where
  | column (name : Bytes) (type : TcType)
  | scalar (a : TcArg)

/-- A parsed argument `t1.col1` or scalar argument -/
inductive TcTableArg where
  | column (table : String) (name : Bytes)
  | scalar (a : TcArg)

/-- `VisitAggregateFuncArg`, `testcases/parser/visitor.go:310-323` -/
def visitAggregateFuncArg (x : TcExt) : TcColArg → Res AggArg
  | .scalar a => visitArgument x a >>= fun c => .ok ⟨some c, "", [], none, 0, true⟩
  | .column name t => tcType t >>= fun t => newAggregateArgument "" name (some t)

/-- `VisitQualifiedAggregateFuncArg`, `testcases/parser/visitor.go:205-217` -/
def visitQualifiedArg (x : TcExt) : TcTableArg → Res AggArg
  | .scalar a => visitArgument x a >>= fun c => .ok ⟨some c, "", [], none, 0, true⟩
  | .column table name => newAggregateArgument table name none

/-! ## Tables and columns -/

/-- `VisitColumnValues`, `testcases/parser/visitor.go:292-300`, in a table, where no type is in context:
nil results are left out -/
def visitRow (x : TcExt) (cells : List TcLit) : Res (List Lit) :=
  Res.mapL (visitLiteral x none) cells >>= fun ls => .ok (ls.filterMap id)

/-- `getLiteral`, `testcases/parser/visitor.go:456-466`; a nil type has no case in `getLiteralFromString` -/
def getLiteral (x : TcExt) (value : Lit) (t : Option Ty) : Res Lit :=
  match value, t with
  | .prim (.string s) _, some t => literalFromString x s t >>= fun r => .ok (r.getD value)
  | _, _ => .ok value

/-- the test `cell.(*expr.NullLiteral)`, `testcases/parser/visitor.go:242` -/
def Lit.isNullLit : Lit → Bool
  | .null _ => true
  | _ => false

/-- A cell of a table, `testcases/parser/visitor.go:241-245`: a null in a column without a type is a call of a
method of a nil interface -/
def tableCell (x : TcExt) (t : Option Ty) (cell : Lit) : Res Lit :=
  getLiteral x cell t >>= fun cell =>
  if cell.isNullLit then
    match t with
    | none => .panic
    | some t => .ok (newNullLiteral (t.withNullability NullabilityNullable))
  else .ok cell

/-- A column of a table, `testcases/parser/visitor.go:238-250`: its cells and its type -/
def tableColumn (x : TcExt) (rows : List (List Lit)) (t : Option Ty) (i : Nat) :
    Res (List Lit × Option Ty) :=
  Res.mapL (fun row => Res.index row i >>= tableCell x t) rows >>= fun cells =>
  .ok (cells, if cells.any Lit.isNullLit then t.map (·.withNullability NullabilityNullable) else t)

/-- `getColumnsFromRows`, `testcases/parser/visitor.go:234-252` -/
def getColumnsFromRows (x : TcExt) (rows : List (List Lit)) (ts : List (Option Ty)) :
    Res (List (List Lit × Option Ty)) :=
  Res.mapL (fun p => tableColumn x rows p.1 p.2) ts.zipIdx

/-- The type that a literal of a column sees: a null in a column of day-time intervals changes the type object,
which the intervals of the column share (`TcElem.marks`), so intervals and nulls have the type `final` it has
in the end, other literals see the one it has when they are visited. `testcases/parser/visitor.go:799-893` -/
def cellType (final now : Ty) : TcLit → Ty
  | .intervalDay _ => final
  | .null => final
  | _ => now

/-- the type object after a literal, see `cellType`; `testcases/parser/visitor.go:882-890` -/
def typeAfter (final now : Ty) : TcLit → Ty
  | .null => final
  | _ => now

/-- `VisitColumnValues`, `testcases/parser/visitor.go:292-300`, with a type in context -/
def visitCells (x : TcExt) (final : Ty) : Ty → List TcLit → Res (List Lit)
  | _, [] => .ok []
  | now, l :: ls =>
      visitLiteral x (some (cellType final now l)) l >>= fun r =>
      visitCells x final (typeAfter final now l) ls >>= fun vs =>
      match r with
      | some v => .ok (v :: vs)
      | none => .ok vs

/-- `VisitDataColumn`, `testcases/parser/visitor.go:254-282` -/
def visitDataColumn (x : TcExt) (cells : List TcLit) (t : TcType) : Res CaseLit :=
  tcType t >>= fun t =>
  let final := if TcElem.marksAny t (cells.map TcElem.lit) then t.markInterval else t
  visitCells x final t cells >>= fun values =>
  let t := if values.any Lit.isNullLit then final.withNullability NullabilityNullable else final
  .ok ⟨t, .lit (.list values (.list NullabilityRequired 0 t))⟩

/-! ## Test cases -/

/-- `TestFuncType`, `testcases/parser/nodes.go:15-21` -/
inductive TestFuncType where
  | scalar
  | aggregate
  deriving DecidableEq

/-- `TestCase`, `testcases/parser/nodes.go:123-135`. Columns and their types are one list. The options are a
Go map, nil (`none`) when there are none. -/
structure TestCase where
  baseURI : String
  groupDesc : String
  funcName : String
  args : List CaseLit
  aggregateArgs : List AggArg
  result : CaseResult
  options : Option (GoMap String String)
  columns : List (List Lit × Option Ty)
  tableName : String
  funcType : TestFuncType

/-- A parsed call of a function: `f(1::i8)`, `DEFINE t1(i8) = ((1)) f(t1.col0)`, `((1)) f(col0::i8)`,
`f((1)::i8)` -/
inductive TcCall where
  | scalar (name : String) (args : List TcArg)
  | table (table : String) (types : List TcType) (rows : List (List TcLit)) (name : String)
      (args : List TcTableArg)
  | compact (rows : List (List TcLit)) (name : String) (args : List TcColArg)
  | column (name : String) (cells : List TcLit) (type : TcType)

/-- What a call contributes to the test case. -/
structure CallParts where
  funcName : String
  args : List CaseLit
  aggregateArgs : List AggArg
  columns : List (List Lit × Option Ty)
  tableName : String

/-- The types of the columns that arguments name, `testcases/parser/visitor.go:155-165` -/
def columnTypesOf (n : Nat) : List AggArg → List (Option Ty) → Res (List (Option Ty))
  | [], ts => .ok ts
  | a :: as, ts =>
      if (n : Int) ≤ a.columnIndex.toInt then .err
      else match a.columnType with
        | none => columnTypesOf n as ts
        | some t =>
            if a.columnIndex.toInt < 0 then .panic
            else columnTypesOf n as (ts.set a.columnIndex.toInt.toNat (some t))

/-- the loop of `VisitMultiArgAggregateFuncCall` over one argument, `testcases/parser/visitor.go:183-193` -/
def tableArg (table : String) (columns : List (List Lit × Option Ty)) (a : AggArg) : Res AggArg :=
  if a.tableName ≠ "" && table ≠ a.tableName then .err
  else if a.isScalar then .ok a
  else Res.index columns a.columnIndex.toInt >>= fun c => .ok { a with columnType := c.2 }

/-- `VisitTestCase` and the visitors of aggregate calls, `testcases/parser/visitor.go:140-197,219-232,342-354`.
Simplification: in a compact call a null in a column of day-time intervals also changes the type of the
argument, which is the same object; this is left out. -/
def visitCall (x : TcExt) : TcCall → Res CallParts
  | .scalar name args => visitArguments x args >>= fun args => .ok ⟨name, args, [], [], ""⟩
  | .table table types rows name args =>
      Res.mapL (visitRow x) rows >>= fun rows =>
      Res.mapL tcType types >>= fun ts =>
      getColumnsFromRows x rows (ts.map some) >>= fun columns =>
      Res.mapL (visitQualifiedArg x) args >>= fun as =>
      Res.mapL (tableArg table columns) as >>= fun as =>
      .ok ⟨name, [], as, columns, table⟩
  | .compact rows name args =>
      Res.mapL (visitRow x) rows >>= fun rows =>
      Res.mapL (visitAggregateFuncArg x) args >>= fun as =>
      Res.index rows 0 >>= fun row =>
      columnTypesOf row.length as (List.replicate row.length none) >>= fun ts =>
      getColumnsFromRows x rows ts >>= fun columns => .ok ⟨name, [], as, columns, ""⟩
  | .column name cells t =>
      visitDataColumn x cells t >>= fun c =>
      .ok ⟨name, [], [⟨some c, "", [], some c.type, 0, false⟩], [], ""⟩

/-- `VisitFuncOptions`, `testcases/parser/visitor.go:325-336` -/
def visitFuncOptions (opts : List (String × String)) : GoMap String String :=
  opts.foldl (fun m o => m.set o.1 o.2) .empty

/-- A parsed test case -/
structure TcCase where
  call : TcCall
  options : Option (List (String × String))
  result : TcResult

/-- `VisitTestCase`, `VisitAggFuncTestCase`, `testcases/parser/visitor.go:131-138,342-354`. The base URI,
description and kind are set by the callers (61-74,98-129) and are arguments here. -/
def visitTestCase (x : TcExt) (uri desc : String) (k : TestFuncType) (c : TcCase) : Res TestCase :=
  visitCall x c.call >>= fun p => visitResult x c.result >>= fun r =>
  .ok ⟨uri, desc, p.funcName, p.args, p.aggregateArgs, r, c.options.map visitFuncOptions, p.columns,
    p.tableName, k⟩

/-- A parsed group of test cases, of scalar or of aggregate functions; the description is optional in the
grammar -/
structure TcGroup where
  kind : TestFuncType
  description : Option String
  cases : List TcCase

/-- `VisitScalarFuncTestGroup`, `VisitAggregateFuncTestGroup`, `testcases/parser/visitor.go:98-129`. Without a
description `v.Visit(..).(string)` is an assertion on nil. -/
def visitTestGroup (x : TcExt) (uri : String) (k : TestFuncType) (g : TcGroup) : Res (List TestCase) :=
  match g.description with
  | none => .panic
  | some desc => if k ≠ g.kind then .err else Res.mapL (visitTestCase x uri desc g.kind) g.cases

/-- The bytes of a token as a string; the tokens concerned are ASCII in valid files. -/
def bytesText (b : Bytes) : String := String.ofList (b.map fun c => Char.ofNat c.toNat)

/-- A parsed test file: kind and version of the header, the included files, the groups -/
structure TcDoc where
  kind : TestFuncType
  version : String
  includes : List Bytes
  groups : List TcGroup

/-- `TestFile` with `TestFileHeader`, `testcases/parser/nodes.go:117-121,442-445` -/
structure TestFile where
  version : String
  kind : TestFuncType
  includedURI : String
  testCases : List TestCase

/-- `VisitDoc`, `VisitHeader`, `VisitVersion`, `VisitInclude`, `testcases/parser/visitor.go:61-96`: only the first
included file counts -/
def visitDoc (x : TcExt) (d : TcDoc) : Res TestFile :=
  Res.index d.includes 0 >>= fun inc =>
  let uri := bytesText (rawString inc)
  Res.mapL (visitTestGroup x uri d.kind) d.groups >>= fun cs =>
  .ok ⟨d.version, d.kind, uri, cs.flatten⟩

/-- `parseTestCasesFromStream` after the parser, `testcases/parser/parse.go:39-70` with
`types/parser/util/error_listener.go:63-79`: a panic is an error -/
def parseTestFile (x : TcExt) (d : TcDoc) : Res TestFile :=
  match visitDoc x d with
  | .ok f => .ok f
  | .err => .err
  | .panic => .err

/-! ## Calls -/

/-- `GetAggregateColumnsData`, `testcases/parser/nodes.go:413-435` -/
def TestCase.columnsData (tc : TestCase) : Res (List (List Lit)) :=
  if tc.funcType ≠ .aggregate then .err
  else if tc.columns.length > 0 then .ok (tc.columns.map (·.1))
  else
    Res.mapL (fun a : AggArg =>
      match a.argument with
      | none => .panic
      | some ⟨_, .lit (.list vs _)⟩ => .ok vs
      | some _ => .err) tc.aggregateArgs

/-- `GetArgTypes`, `testcases/parser/nodes.go:256-274,286-295`; nil types are `none` -/
def TestCase.argTypes (tc : TestCase) : List (Option Ty) :=
  match tc.funcType with
  | .scalar => tc.args.map fun a => some a.type
  | .aggregate => tc.aggregateArgs.map fun a =>
      if a.isScalar then a.argument.map (·.type) else a.columnType

/-- `getAggregateFuncTableSchema`, `testcases/parser/nodes.go:276-284` -/
def TestCase.tableSchema (tc : TestCase) : List (Option Ty) :=
  tc.aggregateArgs.map fun a => if a.isScalar then none else a.columnType

/-- `strings.TrimPrefix`, used in `testcases/parser/nodes.go:339` -/
def trimPrefix (p s : List Char) : List Char := if p.isPrefixOf s then s.drop p.length else s

/-- `strings.TrimSuffix`, used in `testcases/parser/nodes.go:340` -/
def trimSuffix (p s : List Char) : List Char :=
  if p.isSuffixOf s then s.take (s.length - p.length) else s

/-- the URN of `ID`, `testcases/parser/nodes.go:335-342` with `extensions/extension_mgr.go:24` -/
def TestCase.urn (tc : TestCase) : String :=
  if "/".toList.isPrefixOf tc.baseURI.toList then
    "extension:io.substrait:" ++
      String.ofList (trimSuffix ".yaml".toList (trimPrefix "/extensions/".toList tc.baseURI.toList))
  else tc.baseURI

/-- the types when none is nil: a method of a nil interface is called otherwise,
`testcases/parser/nodes.go:297-317` and `extensions/variants.go:165-197` -/
def someTypes (ts : List (Option Ty)) : Res (List Ty) :=
  Res.mapL (fun t : Option Ty => match t with
    | none => Res.panic
    | some t => .ok t) ts

/-- `ID` with `signatureKey` and `CompoundFunctionName`, `testcases/parser/nodes.go:297-347` -/
def TestCase.id (tc : TestCase) : Res ExtId :=
  someTypes tc.argTypes >>= fun ts =>
  .ok ⟨tc.urn, tc.funcName ++ ":" ++ "_".intercalate (ts.map Ty.shortString)⟩

/-- `GetFunctionOptions`, `testcases/parser/nodes.go:242-254`; `entries` is the order in which the loop over
the map sees the options -/
def functionOptions (entries : List (String × String)) : List (String × List String) :=
  entries.map fun o => (o.1, [o.2])

/-- `arg.Value` as an argument of a call, `testcases/parser/nodes.go:354-357,382-383` -/
def CaseVal.toArg : CaseVal → EArg
  | .lit l => .expr (.lit l)
  | .enum name => .enum (bytesText name)

/-- the test of `GetScalarFunctions` and `GetAggregateFunctions`, `functions/functions.go:57-89` with
`processFunctions` 42-51 -/
def Variant.serves (v : Variant) (name : String) (n : Nat) : Bool :=
  decide (v.name = name) &&
    (decide (v.impl.args.length = n) ||
      match v.impl.variadic with
      | some w => w.validCount n
      | none => false)

/-- the loop over the functions of the registry, `testcases/parser/nodes.go:366-371,402-408`: the first one
that matches and has the URN is called -/
def firstMatch {α : Type} (urn : String) (ts : List Ty) (call : ExtId → Res α) : List Variant → Res α
  | [] => .err
  | v :: vs =>
      match matchArguments v.impl.nullability v.impl.args v.impl.variadic ts with
      | .panic => .panic
      | .err => firstMatch urn ts call vs
      | .ok (b, _) =>
          if b then v.id >>= fun id => if id.urn = urn then call id else firstMatch urn ts call vs
          else firstMatch urn ts call vs

/-- Trying the identifier of the test case first, then the functions of the registry,
`testcases/parser/nodes.go:359-372,394-409` -/
def callOrMatch {α : Type} (tc : TestCase) (id : ExtId) (n : Nat) (fs : List Variant)
    (call : ExtId → Res α) : Res α :=
  match call id with
  | .ok a => .ok a
  | .panic => .panic
  | .err =>
      someTypes tc.argTypes >>= fun ts =>
      firstMatch id.urn ts call (fs.filter (·.serves tc.funcName n))

/-- `GetScalarFunctionInvocation`, `testcases/parser/nodes.go:349-373`. `fs` are the scalar functions of the
function registry in its order, `opts` the options in the order of the loop over the map. See
`Model/FuncCall.lean` for what is left out of calls that fail. -/
def TestCase.scalarInvocation (tc : TestCase) (c : Collection) (s : ExtSet) (fs : List Variant)
    (opts : List (String × String)) : Res (Expr × ExtSet) :=
  if tc.funcType ≠ .scalar then .err
  else
    tc.id >>= fun id =>
    let args := tc.args.map (·.value.toArg)
    callOrMatch tc id args.length fs fun id => newScalarFunc c s id (functionOptions opts) args

/-- `NewFieldRef` of a root reference to a field, `expr/field_reference.go:189-204,565-596`; the types of
`newFieldRef` cannot be nil, those of this schema can -/
def fieldRefAt (schema : List (Option Ty)) (i : Int32) : Res Expr :=
  if i.toInt < 0 || (schema.length : Int) ≤ i.toInt then .err
  else
    Res.index schema i.toInt >>= fun t =>
    .ok (.fieldRef .rootReference (.seg (.structField i .nil)) t)

/-- the arguments of the call, `testcases/parser/nodes.go:380-392` -/
def TestCase.aggregateCallArgs (tc : TestCase) : Res (List EArg) :=
  Res.mapL (fun a : AggArg =>
    if a.isScalar then
      match a.argument with
      | none => .panic
      | some c => .ok c.value.toArg
    else fieldRefAt tc.tableSchema a.columnIndex >>= fun e => .ok (.expr e)) tc.aggregateArgs

/-- `AggInvocationAll`, `types/types.go:171` -/
def aggInvocationAll : Int32 := 1

/-- `GetAggregateFunctionInvocation`, `testcases/parser/nodes.go:375-410` -/
def TestCase.aggregateInvocation (tc : TestCase) (c : Collection) (s : ExtSet) (fs : List Variant)
    (opts : List (String × String)) : Res (AggFn × ExtSet) :=
  if tc.funcType ≠ .aggregate then .err
  else
    tc.id >>= fun id =>
    tc.aggregateCallArgs >>= fun args =>
    callOrMatch tc id args.length fs fun id =>
      newAggregateFunc c s id (functionOptions opts) aggInvocationAll phaseInitialToResult [] args

end Verif

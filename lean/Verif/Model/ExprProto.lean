import Verif.Model.Expr
import Verif.Model.ExtSet
/-!
# Expressions and their protobuf form

Models `ExprFromProto`, `FuncArgFromProto` (`expr/expression.go:43-377`), `SortFieldFromProto`,
`BoundFromProto` (`expr/functions.go:81-97,146-164`), `FieldReferenceFromProto`
(`expr/field_reference.go:762-806`), `SubqueryFromProto` (`plan/subquery.go:23-76`), and the
`ToProto` and `ToProtoFuncArg` methods of all expression types.

Simplifications: nil entries of repeated fields, and oneof wrappers around a nil message, are not
represented (decoding protobuf bytes produces neither). The relation inside a subquery and the mask
of a field reference appear in a message as opaque numbers; writing and reading them is a parameter
(`Reg`). A subquery converter is taken to be set, as `plan.FromProto` does.
-/

namespace Verif

/-- What reading and writing an expression asks of its surroundings: the methods of
`ExtensionRegistry` (`expr/utils.go:29-121`, with the embedded `extensions.Set`), the making of
declarations for functions that have none, and the reading and writing of relations and masks.
Simplification: the registry does not change. In Go, making a declaration whose compound name is not
the name in the plan gives that name an anchor of its own, which later calls in the same message can
refer to. -/
structure Reg where
  /-- `DecodeFunc` -/
  decodeFunc : UInt32 → Option ExtId
  /-- `LookupScalarFunction` -/
  scalar : UInt32 → Option String
  /-- `LookupWindowFunction` -/
  window : UInt32 → Option String
  /-- `LookupAggregateFunction` -/
  aggregate : UInt32 → Option String
  /-- the reference and compound name of the call that `NewCustomScalarFunc` and its siblings make with
  `NewScalarFuncVariant(id)` and its siblings, `expr/expression.go:85,128-129`, `expr/functions.go:856` -/
  custom : ExtId → Res (UInt32 × String)
  /-- `Rel.ToProto` -/
  relTo : RelRef → Res Nat
  /-- `RelFromProto` -/
  relFrom : Nat → Res RelRef
  /-- `MaskExpression.ToProto` -/
  maskTo : Nat → Nat
  /-- `MaskExpressionFromProto` -/
  maskFrom : Nat → Nat

/-! ## Messages -/

/-- `proto.Expression_WindowFunction_Bound`, by its `Kind` (`expr/functions.go:151-160`). -/
inductive BoundMsg where
  | unset
  | preceding (offset : Int64)
  | following (offset : Int64)
  | currentRow
  | unbounded
  deriving DecidableEq, Repr

/-- The scalar fields of `proto.Expression_WindowFunction` (`expr/functions.go:713-725`); `none` is
the nil bound. -/
structure WinMsg where
  phase : Int32
  invocation : Int32
  boundsType : Int32
  lower : Option BoundMsg
  upper : Option BoundMsg

/-- The `SortKind` oneof of `proto.SortField` (`expr/functions.go:89-95`). -/
inductive SortKindMsg where
  | unset
  | direction (d : Int32)
  | func (ref : UInt32)
  deriving DecidableEq, Repr

/-- The `ReferenceType` oneof of `proto.Expression_FieldReference`
(`expr/field_reference.go:781-803`). -/
inductive RefMsg where
  | unset
  | direct (s : PSeg)
  | masked (m : Nat)

mutual
/-- `*proto.Expression`, by its `RexType` (cases of `expr/expression.go:60-376`). -/
inductive ExprMsg where
  /-- nil message -/
  | nil
  /-- no `RexType`, the deprecated enum, a nested expression or subquery without a kind -/
  | unset
  | lit (l : PLit)
  | selection (root : RootMsg) (ref : RefMsg)
  | scalar (ref : UInt32) (options : List (String × List String)) (out : Option PTy)
      (args : List ArgMsg)
  | window (ref : UInt32) (options : List (String × List String)) (out : Option PTy) (w : WinMsg)
      (args : List ArgMsg) (sorts : List SortMsg) (partitions : List ExprMsg)
  | ifThen (ifs : List PairMsg) (els : ExprMsg)
  | switch (mtch : ExprMsg) (ifs : List CaseMsg) (els : ExprMsg)
  | singularOr (value : ExprMsg) (options : List ExprMsg)
  | multiOr (value : List ExprMsg) (options : List RowMsg)
  | cast (ty : Option PTy) (input : ExprMsg) (fail : Int32)
  | mapE (nullable : Bool) (variation : UInt32) (kvs : List PairMsg)
  | structE (nullable : Bool) (variation : UInt32) (fields : List ExprMsg)
  | listE (nullable : Bool) (variation : UInt32) (values : List ExprMsg)
  | dynParam (ty : PTy) (ref : UInt32)
  | scalarSubquery (input : Nat)
  | inPredicate (needles : List ExprMsg) (haystack : Nat)
  | setPredicate (op : Int32) (tuples : Nat)
  | setComparison (reduction comparison : Int32) (left : ExprMsg) (right : Nat)
  /-- the parameters are nil, or nullability, variation and types -/
  | lambda (params : Option (Nullability × UInt32 × List PTy)) (body : ExprMsg)
/-- `IfClause`, `Nested_Map_KeyValue` -/
inductive PairMsg where
  | mk (a b : ExprMsg)
/-- `SwitchExpression_IfValue` -/
inductive CaseMsg where
  | mk (l : PLit) (e : ExprMsg)
/-- `MultiOrList_Record` -/
inductive RowMsg where
  | mk (es : List ExprMsg)
/-- The `RootType` oneof of `proto.Expression_FieldReference`
(`expr/field_reference.go:770-780`). -/
inductive RootMsg where
  | unset
  | rootReference
  | outer (steps : UInt32)
  | lambdaParam (steps : UInt32)
  | expr (e : ExprMsg)
/-- `proto.FunctionArgument`, by its `ArgType` (`expr/expression.go:44-51`) -/
inductive ArgMsg where
  | unset
  | enum (s : String)
  | type (t : PTy)
  | value (e : ExprMsg)
/-- `proto.SortField` -/
inductive SortMsg where
  | mk (e : ExprMsg) (kind : SortKindMsg)
end

/-- `m == nil` -/
def ExprMsg.isNil : ExprMsg → Bool
  | .nil => true
  | _ => false

/-! ## Writing -/

/-- The bounds' `ToProto` methods, `expr/functions.go:99-144` -/
def Bound.toMsg : Bound → BoundMsg
  | .preceding n => .preceding n
  | .following n => .following n
  | .currentRow => .currentRow
  | .unbounded => .unbounded

/-- The switch of `SortField.ToProto`, `expr/functions.go:68-76` -/
def SortKind.toMsg : SortKind → SortKindMsg
  | .nil => .unset
  | .direction d => .direction d
  | .func r => .func r

/-- The scalar fields written by `WindowFunction.ToProto`, `expr/functions.go:703-726` -/
def WinAttrs.toMsg (w : WinAttrs) : WinMsg :=
  ⟨w.phase, w.invocation, w.boundsType, w.lower.map Bound.toMsg, w.upper.map Bound.toMsg⟩

/-- The reference part of `ToProtoFieldRef`, `expr/field_reference.go:650-659` -/
def refToProto (reg : Reg) : ERef → Res RefMsg
  | .nil => .ok .unset
  | .seg s => segToProto s >>= fun m => .ok (.direct m)
  | .mask a => .ok (.masked (reg.maskTo a))

/-- `ToProtoFuncArg` of types (`types/types.go:901-905` and siblings): `TypeToProto`, except that a
pointer to an interval_compound type can be written here (`types/interval_compound_type.go:59-63`) -/
def typeArgToProto : Ty → Res PTy
  | .intervalCompound _ n v p => typeToProto (.intervalCompound false n v p)
  | t => typeToProto t

mutual
/-- The `ToProto` methods: literals (`literalToProto`), `FieldReference`
`expr/field_reference.go:648-694`, `IfThen` `expr/expression.go:547-568`, `Cast` 646-656,
`DynamicParameter` 701-710, `SwitchExpr` 882-905, `SingularOrList` 1031-1044, `MultiOrList`
1150-1174, `MapExpr` 1311-1332, `StructExpr` 1437-1455, `ListExpr` 1555-1573, `ScalarFunction`
`expr/functions.go:395-411`, `WindowFunction` 673-728, `Lambda` `expr/lambda.go:53-71`, subqueries
`plan/subquery.go:106-118,188-205,302-315,426-441`. A call on nil panics. -/
def Expr.toProto (reg : Reg) : Expr → Res ExprMsg
  | .nil => .panic
  | .lit l => literalToProto l >>= fun m => .ok (.lit m)
  | .fieldRef root ref _ =>
      refToProto reg ref >>= fun r => ERoot.toProto reg root >>= fun t => .ok (.selection t r)
  | .ifThen ifs els =>
      EPair.toProtoList reg ifs >>= fun ifs =>
      Expr.optToProto reg els >>= fun els => .ok (.ifThen ifs els)
  | .cast ty input fail =>
      typeToProto ty >>= fun t => Expr.toProto reg input >>= fun i => .ok (.cast (some t) i fail)
  | .dynParam ty ref => typeToProto ty >>= fun t => .ok (.dynParam t ref)
  | .switch mtch ifs els =>
      Expr.optToProto reg els >>= fun els =>
      ECase.toProtoList reg ifs >>= fun ifs =>
      Expr.toProto reg mtch >>= fun m => .ok (.switch m ifs els)
  | .singularOr value options =>
      Expr.toProtoList reg options >>= fun os =>
      Expr.toProto reg value >>= fun v => .ok (.singularOr v os)
  | .multiOr value options =>
      ERow.toProtoList reg options >>= fun os =>
      Expr.toProtoList reg value >>= fun v => .ok (.multiOr v os)
  | .mapE n v kvs => EPair.toProtoList reg kvs >>= fun kvs => .ok (.mapE n v kvs)
  | .structE n v fs => Expr.toProtoList reg fs >>= fun fs => .ok (.structE n v fs)
  | .listE n v vs => Expr.toProtoList reg vs >>= fun vs => .ok (.listE n v vs)
  | .scalar a args =>
      EArg.toProtoList reg args >>= fun args =>
      typeToProto a.outputType >>= fun t => .ok (.scalar a.funcRef a.options (some t) args)
  | .window a w args sorts parts =>
      EArg.toProtoList reg args >>= fun args =>
      ESort.toProtoList reg sorts >>= fun sorts =>
      Expr.toProtoList reg parts >>= fun parts =>
      typeToProto a.outputType >>= fun t =>
      .ok (.window a.funcRef a.options (some t) w.toMsg args sorts parts)
  | .lambda n v ps body =>
      Res.mapL typeToProto ps >>= fun ps =>
      Expr.toProto reg body >>= fun b => .ok (.lambda (some (n, v, ps)) b)
  | .scalarSubquery r => reg.relTo r >>= fun m => .ok (.scalarSubquery m)
  | .inPredicate needles r =>
      Expr.toProtoList reg needles >>= fun ns => reg.relTo r >>= fun m => .ok (.inPredicate ns m)
  | .setPredicate op r => reg.relTo r >>= fun m => .ok (.setPredicate op m)
  | .setComparison red cmp left right =>
      Expr.toProto reg left >>= fun l =>
      match right with
      | none => .panic
      | some r => reg.relTo r >>= fun m => .ok (.setComparison red cmp l m)
/-- `if els != nil { m = els.ToProto() }`, `expr/expression.go:556-559,883-886` -/
def Expr.optToProto (reg : Reg) : Expr → Res ExprMsg
  | .nil => .ok .nil
  | e => Expr.toProto reg e
/-- a loop calling `ToProto`, e.g. `expr/expression.go:1033-1035` -/
def Expr.toProtoList (reg : Reg) : List Expr → Res (List ExprMsg)
  | [] => .ok []
  | e :: es => Expr.toProto reg e >>= fun m => Expr.toProtoList reg es >>= fun ms => .ok (m :: ms)
/-- `expr/expression.go:549-554,1313-1318` -/
def EPair.toProtoList (reg : Reg) : List EPair → Res (List PairMsg)
  | [] => .ok []
  | .mk a b :: es =>
      Expr.toProto reg a >>= fun a => Expr.toProto reg b >>= fun b =>
      EPair.toProtoList reg es >>= fun ms => .ok (.mk a b :: ms)
/-- `expr/expression.go:889-894` -/
def ECase.toProtoList (reg : Reg) : List ECase → Res (List CaseMsg)
  | [] => .ok []
  | .mk l e :: es =>
      literalToProto l >>= fun l => Expr.toProto reg e >>= fun e =>
      ECase.toProtoList reg es >>= fun ms => .ok (.mk l e :: ms)
/-- `expr/expression.go:1160-1164` -/
def ERow.toProtoList (reg : Reg) : List ERow → Res (List RowMsg)
  | [] => .ok []
  | .mk es :: rs =>
      Expr.toProtoList reg es >>= fun ms => ERow.toProtoList reg rs >>= fun rs => .ok (.mk ms :: rs)
/-- The root part of `ToProtoFieldRef`, `expr/field_reference.go:661-683`; `RootReference` is the
nil interface -/
def ERoot.toProto (reg : Reg) : ERoot → Res RootMsg
  | .rootReference => .ok .rootReference
  | .outer n => .ok (.outer n)
  | .lambdaParam n => .ok (.lambdaParam n)
  | .expr .nil => .ok .rootReference
  | .expr e => Expr.toProto reg e >>= fun m => .ok (.expr m)
/-- `ToProtoFuncArg`: of expressions a value (e.g. `expr/expression.go:630-634`), of types a type,
of enums an enum (`types/types.go:1682-1686`) -/
def EArg.toProto (reg : Reg) : EArg → Res ArgMsg
  | .nil => .panic
  | .expr e => Expr.toProto reg e >>= fun m => .ok (.value m)
  | .type t => typeArgToProto t >>= fun m => .ok (.type m)
  | .enum s => .ok (.enum s)
/-- the loops of `expr/functions.go:397-399,684-686,955-957` -/
def EArg.toProtoList (reg : Reg) : List EArg → Res (List ArgMsg)
  | [] => .ok []
  | a :: as => EArg.toProto reg a >>= fun m => EArg.toProtoList reg as >>= fun ms => .ok (m :: ms)
/-- `SortField.ToProto`, `expr/functions.go:66-79`, in the loops of
`expr/functions.go:691-693,962-964` -/
def ESort.toProtoList (reg : Reg) : List ESort → Res (List SortMsg)
  | [] => .ok []
  | .mk e k :: es =>
      Expr.toProto reg e >>= fun m =>
      ESort.toProtoList reg es >>= fun ms => .ok (.mk m k.toMsg :: ms)
end

/-! ## Reading -/

/-- `BoundFromProto`, `expr/functions.go:146-164`: nil and unset bounds are nil -/
def boundFromProto : Option BoundMsg → Option Bound
  | none => none
  | some .unset => none
  | some (.preceding n) => some (.preceding n)
  | some (.following n) => some (.following n)
  | some .currentRow => some .currentRow
  | some .unbounded => some .unbounded

/-- The scalar fields read by `ExprFromProto`, `expr/expression.go:128-138,148-154` -/
def WinMsg.toAttrs (w : WinMsg) : WinAttrs :=
  ⟨w.phase, w.invocation, w.boundsType, boundFromProto w.lower, boundFromProto w.upper⟩

/-- The switch of `SortFieldFromProto`, `expr/functions.go:89-96` -/
def sortKindFromProto : SortKindMsg → Res SortKind
  | .unset => .err
  | .direction d => .ok (.direction d)
  | .func r => .ok (.func r)

/-- Resolving the function of a call, `expr/expression.go:78-94,122-155`: reference and declaration
of the call that is built. `lookup` is the registry's lookup for the kind of function. -/
def resolveCall (reg : Reg) (lookup : UInt32 → Option String) (ref : UInt32) :
    Res (UInt32 × String) :=
  match reg.decodeFunc ref with
  | none => .err
  | some id =>
    match lookup ref with
    | none => reg.custom id
    | some decl => .ok (ref, decl)

/-- The reference part of `FieldReferenceFromProto`, `expr/field_reference.go:781-805`. A nil
segment's `GetType` is a call on a nil interface. Simplification: when the root expression has no
known type, Go passes a nil type on; here that is a panic already. -/
def refFromProto (reg : Reg) (base : Option (List Ty)) (root : ERoot) : RefMsg →
    Res (ERef × Option Ty)
  | .unset => .ok (.nil, none)
  | .masked m => .ok (.mask (reg.maskFrom m), none)
  | .direct s =>
      segFromProto s >>= fun s =>
      let ref : ERef := if s.isNil then .nil else .seg s
      match root with
      | .rootReference =>
          match base with
          | some ts =>
              if s.isNil then .panic
              else s.getType (.struct NullabilityRequired 0 ts) >>= fun t => .ok (ref, some t)
          | none => .ok (ref, none)
      | .expr e =>
          e.getType >>= fun t =>
          if s.isNil then .panic else s.getType t >>= fun t => .ok (ref, some t)
      | _ => .ok (ref, none)

/-- A literal as an `Expression`: the nil literal is the nil expression, `expr/expression.go:62` -/
def Expr.ofLit : Lit → Expr
  | .nil => .nil
  | l => .lit l

/-- An expression as a `FuncArg`: the nil expression is the nil argument, `expr/expression.go:50`. Likewise what
`BuildFuncArg` of an expression builder returns: an `exprWrapper` around nil gives a nil argument, `expr/builder.go:274` -/
def EArg.ofExpr : Expr → EArg
  | .nil => .nil
  | e => .expr e

mutual
/-- `ExprFromProto`, `expr/expression.go:55-377`. -/
def Expr.fromProto (reg : Reg) (base : Option (List Ty)) : ExprMsg → Res Expr
  | .nil => .err
  | .unset => .err
  | .lit m => literalFromProto m >>= fun l => .ok (Expr.ofLit l)
  | .selection root ref =>
      ERoot.fromProto reg base root >>= fun root =>
      refFromProto reg base root ref >>= fun r => .ok (.fieldRef root r.1 r.2)
  | .scalar ref options out args =>
      EArg.fromProtoList reg base args >>= fun args =>
      match out with
      | none => .err
      | some out =>
        resolveCall reg reg.scalar ref >>= fun f =>
        typeFromProto out >>= fun t => .ok (.scalar ⟨f.1, f.2, options, t⟩ args)
  | .window ref options out w args sorts parts =>
      EArg.fromProtoList reg base args >>= fun args =>
      Expr.fromProtoList reg base parts >>= fun parts =>
      ESort.fromProtoList reg base sorts >>= fun sorts =>
      match out with
      | none => .err
      | some out =>
        resolveCall reg reg.window ref >>= fun f =>
        typeFromProto out >>= fun t =>
        .ok (.window ⟨f.1, f.2, options, t⟩ w.toAttrs args sorts parts)
  | .ifThen ifs els =>
      Expr.fromProto reg base els >>= fun els =>
      EPair.fromProtoList reg base ifs >>= fun ifs => .ok (.ifThen ifs els)
  | .switch mtch ifs els =>
      Expr.fromProto reg base mtch >>= fun m =>
      Expr.fromProto reg base els >>= fun els =>
      ECase.fromProtoList reg base ifs >>= fun ifs => .ok (.switch m ifs els)
  | .singularOr value options =>
      Expr.fromProto reg base value >>= fun v =>
      Expr.fromProtoList reg base options >>= fun os => .ok (.singularOr v os)
  | .multiOr value options =>
      Expr.fromProtoList reg base value >>= fun v =>
      ERow.fromProtoList reg base options >>= fun os => .ok (.multiOr v os)
  | .cast ty input fail =>
      match ty with
      | none => .err
      | some ty =>
        Expr.fromProto reg base input >>= fun i =>
        typeFromProto ty >>= fun t => .ok (.cast t i fail)
  | .mapE n v kvs =>
      match kvs with
      | [] => .err
      | kv :: kvs => EPair.fromProtoList reg base (kv :: kvs) >>= fun kvs => .ok (.mapE n v kvs)
  | .structE n v fs => Expr.fromProtoList reg base fs >>= fun fs => .ok (.structE n v fs)
  | .listE n v vs =>
      match vs with
      | [] => .err
      | x :: xs => Expr.fromProtoList reg base (x :: xs) >>= fun vs => .ok (.listE n v vs)
  | .dynParam ty ref => typeFromProto ty >>= fun t => .ok (.dynParam t ref)
  | .scalarSubquery m => reg.relFrom m >>= fun r => .ok (.scalarSubquery r)
  | .inPredicate ns m =>
      Expr.fromProtoList reg base ns >>= fun ns =>
      reg.relFrom m >>= fun r => .ok (.inPredicate ns r)
  | .setPredicate op m => reg.relFrom m >>= fun r => .ok (.setPredicate op r)
  | .setComparison red cmp l m =>
      Expr.fromProto reg base l >>= fun l =>
      reg.relFrom m >>= fun r => .ok (.setComparison red cmp l (some r))
  | .lambda params body =>
      match params with
      | none => .err
      | some (n, v, ps) =>
        -- the body is checked for nil before the parameters are read
        if body.isNil then .err
        else
          Res.mapL typeFromProto ps >>= fun ps =>
          if n ≠ NullabilityRequired then .err
          else Expr.fromProto reg base body >>= fun b => .ok (.lambda n v ps b)
/-- a loop calling `ExprFromProto`, e.g. `expr/expression.go:214-219` -/
def Expr.fromProtoList (reg : Reg) (base : Option (List Ty)) : List ExprMsg → Res (List Expr)
  | [] => .ok []
  | m :: ms =>
      Expr.fromProto reg base m >>= fun e =>
      Expr.fromProtoList reg base ms >>= fun es => .ok (e :: es)
/-- `expr/expression.go:163-173,277-287` -/
def EPair.fromProtoList (reg : Reg) (base : Option (List Ty)) : List PairMsg → Res (List EPair)
  | [] => .ok []
  | .mk a b :: ms =>
      Expr.fromProto reg base a >>= fun a => Expr.fromProto reg base b >>= fun b =>
      EPair.fromProtoList reg base ms >>= fun es => .ok (.mk a b :: es)
/-- `expr/expression.go:194-200` -/
def ECase.fromProtoList (reg : Reg) (base : Option (List Ty)) : List CaseMsg → Res (List ECase)
  | [] => .ok []
  | .mk l e :: ms =>
      literalFromProto l >>= fun l => Expr.fromProto reg base e >>= fun e =>
      ECase.fromProtoList reg base ms >>= fun es => .ok (.mk l e :: es)
/-- `expr/expression.go:236-244` -/
def ERow.fromProtoList (reg : Reg) (base : Option (List Ty)) : List RowMsg → Res (List ERow)
  | [] => .ok []
  | .mk ms :: rs =>
      Expr.fromProtoList reg base ms >>= fun es =>
      ERow.fromProtoList reg base rs >>= fun rs => .ok (.mk es :: rs)
/-- The root part of `FieldReferenceFromProto`, `expr/field_reference.go:770-780`: an unset root
stays the nil interface, which is `RootReference` -/
def ERoot.fromProto (reg : Reg) (base : Option (List Ty)) : RootMsg → Res ERoot
  | .unset => .ok .rootReference
  | .rootReference => .ok .rootReference
  | .outer n => .ok (.outer n)
  | .lambdaParam n => .ok (.lambdaParam n)
  | .expr m =>
      Expr.fromProto reg base m >>= fun e => .ok (.expr e)
/-- `FuncArgFromProto`, `expr/expression.go:43-53` -/
def EArg.fromProto (reg : Reg) (base : Option (List Ty)) : ArgMsg → Res EArg
  | .unset => .err
  | .enum s => .ok (.enum s)
  | .type m => typeFromProto m >>= fun t => .ok (.type t)
  | .value m => Expr.fromProto reg base m >>= fun e => .ok (EArg.ofExpr e)
/-- the loops of `expr/expression.go:68-72,98-102`, `expr/functions.go:837-841` -/
def EArg.fromProtoList (reg : Reg) (base : Option (List Ty)) : List ArgMsg → Res (List EArg)
  | [] => .ok []
  | m :: ms =>
      EArg.fromProto reg base m >>= fun a =>
      EArg.fromProtoList reg base ms >>= fun as => .ok (a :: as)
/-- `SortFieldFromProto`, `expr/functions.go:81-97`, in the loops of `expr/expression.go:112-116`,
`expr/functions.go:844-848` -/
def ESort.fromProtoList (reg : Reg) (base : Option (List Ty)) : List SortMsg → Res (List ESort)
  | [] => .ok []
  | .mk m k :: ms =>
      Expr.fromProto reg base m >>= fun e =>
      sortKindFromProto k >>= fun k =>
      ESort.fromProtoList reg base ms >>= fun es => .ok (.mk e k :: es)
end

end Verif

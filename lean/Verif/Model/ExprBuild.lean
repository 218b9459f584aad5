import Verif.Model.Lambda
import Verif.Model.FuncCall
/-!
# Building expressions against a registry

Models the builders of `expr/builder.go` with a registry, that is, a collection and an extension set
(`expr/utils.go:31-41`). `Model/Lambda.lean` models the stack of lambda parameters kept in the
`ExprBuilder`, with the registry left open; here the set, which building changes, is threaded through.

Simplifications: the stack is passed down instead of being pushed and popped; the set after a failure
is left out (see `Model/FuncCall.lean`).
-/

namespace Verif

mutual
/-- The builders of `expr/builder.go` that make expressions. -/
inductive XExp where
  /-- a nil `Builder` -/
  | nil
  /-- `exprWrapper`, lines 269-275: an expression, which may be nil, or an error carried along -/
  | wrap (e : Expr) (failed : Bool)
  /-- `castBuilder`, lines 285-289 -/
  | cast (ty : Ty) (fail : Int32) (input : XExp)
  /-- `dynamicParamBuilder`, lines 313-316 -/
  | dynParam (ty : Option Ty) (ref : UInt32)
  /-- `scalarFuncBuilder`, lines 331-337 -/
  | scalarFn (id : ExtId) (opts : List (String × List String)) (args : List XArg)
  /-- `windowFuncBuilder`, lines 366-380 -/
  | windowFn (id : ExtId) (opts : List (String × List String)) (w : WinAttrs) (args : List XArg)
      (sorts : List ESort) (partitions : List XExp)
  /-- `fieldRefBuilder`, lines 522-527 -/
  | ref (root : ERoot) (ref : ERef)
  /-- `lambdaParamRefBuilder`, lines 541-545 -/
  | lambdaParam (field : Int32) (child : Seg) (stepsOut : UInt32)
  /-- `lambdaBuilder`, lines 217-221 -/
  | lambda (params : Option BParams) (body : XExp)
/-- A `FuncArgBuilder`: an expression builder or `enumWrapper`, lines 277-283. -/
inductive XArg where
  | expr (b : XExp)
  | enum (s : String)
end

/-- a nil `Builder`, tested in `expr/builder.go:237` -/
def XExp.isNil : XExp → Bool
  | .nil => true
  | _ => false

/-- The end of `windowFuncBuilder.Build`, `expr/builder.go:403-410`, with `validate`,
`expr/functions.go:633-639` -/
def finishWindow (w : WinAttrs) (sorts : List ESort) (parts : List Expr) : Expr → Res Expr
  | .window a w0 args _ _ =>
      if w.boundsType = boundsTypeRange ∧ sorts.length ≠ 1 then .err
      else
        .ok (.window a { w0 with boundsType := w.boundsType, lower := w.lower, upper := w.upper } args
          sorts parts)
  | _ => .panic

mutual
/-- `BuildExpr` of each builder, and the set afterwards: `exprWrapper` `expr/builder.go:275`, cast
293-304, dynamic parameter 318-326, scalar function 339-349, window function 382-411, field reference
529-531, lambda parameter 547-558, lambda 224-256. `ctx` is `lambdaContext`, `schema` the
`BaseSchema`, lines 45-47. -/
def XExp.build (c : Collection) (schema : Option (List Ty)) : XExp → Ctx → ExtSet → Res (Expr × ExtSet)
  | .nil, _, _ => .panic
  | .wrap e failed, _, s => if failed then .err else .ok (e, s)
  | .cast ty fail input, ctx, s =>
      XExp.build c schema input ctx s >>= fun (e, s) => .ok (.cast ty e fail, s)
  | .dynParam ty ref, _, s =>
      match ty with
      | none => .err
      | some t => .ok (.dynParam t ref, s)
  | .scalarFn id opts args, ctx, s =>
      XArg.buildList c schema args ctx s >>= fun (as, s) => newScalarFunc c s id opts as
  | .windowFn id opts w args sorts parts, ctx, s =>
      XArg.buildList c schema args ctx s >>= fun (as, s) =>
      XExp.buildList c schema parts ctx s >>= fun (ps, s) =>
      newWindowFunc c s id opts w.invocation w.phase as >>= fun (f, s) =>
      finishWindow w sorts ps f >>= fun f => .ok (f, s)
  | .ref root ref, _, s => newFieldRef root ref schema >>= fun e => .ok (e, s)
  | .lambdaParam field child steps, ctx, s =>
      lambdaParamType ctx field child steps >>= fun t =>
      .ok (.fieldRef (.lambdaParam steps) (.seg (.structField field child)) (some t), s)
  | .lambda params body, ctx, s =>
      match params with
      | none => .err
      | some p =>
          if p.nullability ≠ NullabilityRequired then .err
          else
            match BParams.check p.types with
            | none => .err
            | some ts =>
                if body.isNil then .err
                else
                  XExp.build c schema body (ctx ++ [ts]) s >>= fun (e, s) =>
                  .ok (.lambda p.nullability p.variation ts e, s)
/-- the argument loops, `expr/builder.go:340-346,383-389,483-489` -/
def XArg.buildList (c : Collection) (schema : Option (List Ty)) :
    List XArg → Ctx → ExtSet → Res (List EArg × ExtSet)
  | [], _, s => .ok ([], s)
  | .enum v :: as, ctx, s =>
      XArg.buildList c schema as ctx s >>= fun (es, s) => .ok (.enum v :: es, s)
  | .expr b :: as, ctx, s =>
      XExp.build c schema b ctx s >>= fun (e, s) =>
      XArg.buildList c schema as ctx s >>= fun (es, s) => .ok (.ofExpr e :: es, s)
/-- the partition loop, `expr/builder.go:391-396` -/
def XExp.buildList (c : Collection) (schema : Option (List Ty)) :
    List XExp → Ctx → ExtSet → Res (List Expr × ExtSet)
  | [], _, s => .ok ([], s)
  | b :: bs, ctx, s =>
      XExp.build c schema b ctx s >>= fun (e, s) =>
      XExp.buildList c schema bs ctx s >>= fun (es, s) => .ok (e :: es, s)
end

/-- `aggregateFuncBuilder`, `expr/builder.go:470-480` -/
structure XAgg where
  id : ExtId
  opts : List (String × List String)
  phase : Int32
  invocation : Int32
  args : List XArg
  sorts : List ESort

/-- `aggregateFuncBuilder.Build`, `expr/builder.go:482-492`, outside of any lambda -/
def XAgg.build (c : Collection) (schema : Option (List Ty)) (b : XAgg) (s : ExtSet) :
    Res (AggFn × ExtSet) :=
  XArg.buildList c schema b.args [] s >>= fun (as, s) =>
  newAggregateFunc c s b.id b.opts b.invocation b.phase b.sorts as

end Verif

import Verif.Model.Expr
/-!
# Expression builders and the lambda scope

Models `expr/builder.go`: the builders that produce expressions, and the stack of lambda parameters
kept in the `ExprBuilder`. All builders of a tree belong to one `ExprBuilder`; resolution of
functions against the registry is a parameter (`BEnv`).
-/

namespace Verif

/-- A parameters struct (`*types.StructType` with nil entries possible; `expr/builder.go:219`). -/
structure BParams where
  nullability : Nullability
  variation : UInt32
  types : List (Option Ty)

mutual
/-- The builders of `expr/builder.go` that make expressions. -/
inductive BExp where
  /-- a nil `Builder` -/
  | nil
  /-- `exprWrapper`, lines 269-275: an expression, or an error carried along -/
  | wrap (e : Expr) (failed : Bool)
  /-- `castBuilder`, lines 285-289 -/
  | cast (ty : Ty) (fail : Int32) (input : BExp)
  /-- `dynamicParamBuilder`, lines 313-316 -/
  | dynParam (ty : Option Ty) (ref : UInt32)
  /-- `scalarFuncBuilder`, lines 331-337; the id and options are represented by a number -/
  | scalarFn (id : Nat) (args : List BArg)
  /-- `windowFuncBuilder`, lines 366-380 -/
  | windowFn (id : Nat) (w : WinAttrs) (args : List BArg) (sorts : List ESort)
      (partitions : List BExp)
  /-- `fieldRefBuilder`, lines 522-527 -/
  | ref (root : ERoot) (ref : ERef)
  /-- `lambdaParamRefBuilder`, lines 541-545; the reference is a `StructFieldRef` -/
  | lambdaParam (field : Int32) (child : Seg) (stepsOut : UInt32)
  /-- `lambdaBuilder`, lines 217-221; `none` is a nil parameters struct -/
  | lambda (params : Option BParams) (body : BExp)
/-- A `FuncArgBuilder`: an expression builder or `enumWrapper`, lines 277-283. -/
inductive BArg where
  | expr (b : BExp)
  | enum (s : String)
end

/-- a nil `Builder`, tested in `expr/builder.go:237` -/
def BExp.isNil : BExp → Bool
  | .nil => true
  | _ => false

/-- What a build depends on: `NewScalarFunc` and `NewWindowFunc` up to the arguments
(`expr/functions.go:276-295,506-533`), and the `BaseSchema` (`expr/builder.go:46`). -/
structure BEnv where
  scalar : Nat → List EArg → Res FnAttrs
  window : Nat → List EArg → Res FnAttrs
  schema : Option (List Ty)

/-- `lambdaContext`, `expr/builder.go:47`: the types of the parameters of the lambdas being built,
the innermost last (nullability and variation are not used). -/
abbrev Ctx := List (List Ty)

/-- A build: its outcome and the lambda context it leaves. -/
abbrev BM (α : Type) := Ctx → Res α × Ctx

/-- Go's `x, err := ..; if err != nil { return }`. -/
def BM.bind {α β : Type} (x : BM α) (f : α → BM β) : BM β := fun c =>
  match x c with
  | (.ok a, c') => f a c'
  | (.err, c') => (.err, c')
  | (.panic, c') => (.panic, c')

/-- a result that does not concern the context -/
def BM.lift {α : Type} (r : Res α) : BM α := fun c => (r, c)

/-- The parameter types when none is nil, `expr/builder.go:231-235`. -/
def BParams.check : List (Option Ty) → Option (List Ty)
  | [] => some []
  | none :: _ => none
  | some t :: ts => (BParams.check ts).map (t :: ·)

/-- `NewFieldRef`, `expr/field_reference.go:565-596` -/
def newFieldRef (root : ERoot) (ref : ERef) (schema : Option (List Ty)) : Res Expr :=
  match ref with
  | .nil => .err
  | .mask _ => .err
  | .seg s =>
      match root with
      | .rootReference =>
          match schema with
          | none => .err
          | some ts =>
              s.getType (.struct NullabilityRequired 0 ts) >>= fun t =>
              .ok (.fieldRef root ref (some t))
      | .expr e =>
          -- a nil root is no expression
          if e.isNil then .err
          else e.getType >>= fun rt => s.getType rt >>= fun t => .ok (.fieldRef root ref (some t))
      | _ => .err

/-- `getLambdaParamType`, `expr/builder.go:562-580` -/
def lambdaParamType (ctx : Ctx) (field : Int32) (child : Seg) (stepsOut : UInt32) : Res Ty :=
  if ctx.length ≤ stepsOut.toNat then .err
  else
    Res.index ctx ((ctx.length : Int) - 1 - stepsOut.toNat) >>= fun ps =>
    if (ps.length : Int) ≤ field.toInt then .err
    else (Seg.structField field child).getType (.struct NullabilityRequired 0 ps)

/-- `types.BoundsTypeRange`, compared in `WindowFunction.validate`, `expr/functions.go:633-639` -/
def boundsTypeRange : Int32 := 2

mutual
/-- `BuildExpr` of each builder: `exprWrapper` `expr/builder.go:275`, cast 293-304, dynamic parameter
318-326, scalar function 339-349, window function 382-411, field reference 529-531, lambda parameter
547-558, lambda 224-256. -/
def BExp.build (env : BEnv) : BExp → BM Expr
  | .nil => .lift .panic
  | .wrap e failed => .lift (if failed then .err else .ok e)
  | .cast ty fail input => (BExp.build env input).bind fun e => .lift (.ok (.cast ty e fail))
  | .dynParam ty ref =>
      .lift (match ty with
        | none => .err
        | some t => .ok (.dynParam t ref))
  | .scalarFn id args =>
      (BArg.buildList env args).bind fun as =>
      .lift (env.scalar id as >>= fun a => .ok (.scalar a as))
  | .windowFn id w args sorts parts =>
      (BArg.buildList env args).bind fun as =>
      (BExp.buildList env parts).bind fun ps =>
      .lift (env.window id as >>= fun a =>
        if w.boundsType = boundsTypeRange ∧ sorts.length ≠ 1 then .err
        else .ok (.window a w as sorts ps))
  | .ref root ref => .lift (newFieldRef root ref env.schema)
  | .lambdaParam field child steps => fun ctx =>
      (lambdaParamType ctx field child steps >>= fun t =>
        .ok (.fieldRef (.lambdaParam steps) (.seg (.structField field child)) (some t)), ctx)
  | .lambda params body => fun ctx =>
      match params with
      | none => (.err, ctx)
      | some p =>
          if p.nullability ≠ NullabilityRequired then (.err, ctx)
          else
            match BParams.check p.types with
            | none => (.err, ctx)
            | some ts =>
                if body.isNil then (.err, ctx)
                else
                  -- push, build the body, pop on success and on error
                  match BExp.build env body (ctx ++ [ts]) with
                  | (.panic, ctx') => (.panic, ctx')
                  | (r, ctx') =>
                      if ctx'.isEmpty then (.panic, ctx')
                      else
                        (r >>= fun e => .ok (.lambda p.nullability p.variation ts e),
                          ctx'.dropLast)
/-- the argument loop, `expr/builder.go:340-346,383-389` -/
def BArg.buildList (env : BEnv) : List BArg → BM (List EArg)
  | [] => .lift (.ok [])
  | .enum s :: as => (BArg.buildList env as).bind fun es => .lift (.ok (.enum s :: es))
  | .expr b :: as =>
      (BExp.build env b).bind fun e =>
      (BArg.buildList env as).bind fun es => .lift (.ok (.expr e :: es))
/-- the partition loop, `expr/builder.go:391-396` -/
def BExp.buildList (env : BEnv) : List BExp → BM (List Expr)
  | [] => .lift (.ok [])
  | b :: bs =>
      (BExp.build env b).bind fun e =>
      (BExp.buildList env bs).bind fun es => .lift (.ok (e :: es))
end

end Verif

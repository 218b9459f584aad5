import Verif.Model.RelProto
import Verif.Model.FuncCall
import Verif.Model.Plan
/-!
# Extended expressions

Models `expr/expression.go:1613-1729`.
-/

namespace Verif

/-- `ExpressionReference`, `expr/expression.go:1613-1620`. `.nil` and `none` stand for the nil values. -/
structure ExprRef where
  names : List String
  expr : Expr
  measure : Option AggFn

/-- `NewExpressionReference`, `expr/expression.go:1622-1624` -/
def ExprRef.ofExpr (names : List String) (e : Expr) : ExprRef := ⟨names, e, none⟩

/-- `NewMeasureReference`, `expr/expression.go:1626-1628` -/
def ExprRef.ofMeasure (names : List String) (f : Option AggFn) : ExprRef := ⟨names, .nil, f⟩

/-- `SetExpr`, `expr/expression.go:1646-1649` -/
def ExprRef.setExpr (r : ExprRef) (e : Expr) : ExprRef := { r with expr := e, measure := none }

/-- `SetMeasure`, `expr/expression.go:1651-1654` -/
def ExprRef.setMeasure (r : ExprRef) (f : Option AggFn) : ExprRef := { r with expr := .nil, measure := f }

/-- the `ExprType` of `proto.ExpressionReference` (`expr/expression.go:1633-1640`) -/
inductive RefKindMsg where
  | unset
  | expr (e : ExprMsg)
  | measure (f : Option AggMsg)

/-- `proto.ExpressionReference` (`expr/expression.go:1631`) -/
structure ExprRefMsg where
  names : List String
  kind : RefKindMsg

/-- `ExpressionReference.ToProto`, `expr/expression.go:1630-1644` -/
def ExprRef.toProto (reg : Reg) (r : ExprRef) : Res ExprRefMsg :=
  if r.expr.isNil then
    match r.measure with
    | none => .ok ⟨r.names, .unset⟩
    | some f => f.toMsg reg >>= fun m => .ok ⟨r.names, .measure (some m)⟩
  else r.expr.toProto reg >>= fun m => .ok ⟨r.names, .expr m⟩

/-- `Extended`, `expr/expression.go:1659-1668`. Simplification: `Extensions` and the set inside the
unexported `reg` are one field. They are the same set when the value comes from `ExtendedFromProto`, and
nothing else sets `reg`; `ToProto` uses the one in `reg`. The version and the advanced extensions are
opaque. -/
structure Extended where
  version : Option Nat
  set : ExtSet
  refs : List ExprRef
  base : NamedStruct
  adv : Option Nat
  urls : List String

/-- `proto.ExtendedExpression` (`expr/expression.go:1720-1728`). Simplification: references are not nil. -/
structure ExtendedMsg where
  version : Option Nat
  ext : ExtMsg
  refs : List ExprRefMsg
  base : Option NamedStructMsg
  adv : Option Nat
  urls : List String

/-- the loop body over the references, `expr/expression.go:1681-1700` -/
def ExprRef.fromProto (reg : Reg) (base : Option (List Ty)) (m : ExprRefMsg) : Res ExprRef :=
  let out : ExprRef := ⟨m.names, .nil, none⟩
  match m.kind with
  | .unset => .ok out
  | .expr e => Expr.fromProto reg base e >>= fun e => .ok (out.setExpr e)
  | .measure f => aggFromProto reg base f >>= fun f => .ok (out.setMeasure (some f))

/-- The registry has no converter of subqueries (`expr/utils.go:85-90`; only the plan package sets one), so
reading one fails, `expr/expression.go:342-344`. Simplification: the model fails when it comes to the relation,
after the other parts of the subquery have been read. -/
def Reg.noSubqueries (rest : Reg) : Reg := { rest with relFrom := fun _ => .err }

/-- `ExtendedFromProto`, `expr/expression.go:1670-1711`; `rest` writes relations and reads and writes masks, see
`Reg.ofSet` -/
def Extended.fromProto (rest : Reg) (c : Collection) (m : ExtendedMsg) : Res Extended :=
  getExtensionSet c.urnLoaded m.ext >>= fun set =>
  namedStructFromProto m.base >>= fun base =>
  Res.mapL (ExprRef.fromProto (.ofSet rest.noSubqueries c set) (some base.types)) m.refs >>= fun refs =>
  .ok ⟨m.version, set, refs, base, m.adv, m.urls⟩

/-- `Extended.ToProto`, `expr/expression.go:1713-1729`; the maps of the set are ranged over in the orders `o`. -/
def Extended.toProto (rest : Reg) (c : Collection) (o : Orders) (x : Extended) : Res ExtendedMsg :=
  ExtSet.toProto o >>= fun ext =>
  Res.mapL (ExprRef.toProto (.ofSet rest.noSubqueries c x.set)) x.refs >>= fun refs =>
  x.base.toMsg >>= fun base =>
  .ok ⟨x.version, ⟨ext.1, ext.2.map some⟩, refs, some base, x.adv, x.urls⟩

/-! ## Plans with their extensions -/

/-- a plan with all its fields, `plan/plan.go:151-160`; the version and the advanced extensions are opaque -/
structure FullPlan where
  plan : Plan
  set : ExtSet
  version : Option Nat
  adv : Option Nat

/-- `proto.Plan` with all the fields that are read, `plan/plan.go:292-300` -/
structure FullPlanMsg where
  plan : PlanMsg RelMsg
  ext : ExtMsg
  version : Option Nat
  adv : Option Nat

/-- the registry a plan is read and written with, `plan/plan.go:248-254`; decoders, subqueries and masks are
`rest`'s -/
def RelReg.ofSet (rest : RelReg) (c : Collection) (s : ExtSet) : RelReg :=
  { rest with toReg := Reg.ofSet rest.toReg c s }

/-- `FromProtoWithDecoder`, `plan/plan.go:235-272` -/
noncomputable def FullPlan.fromProto (rest : RelReg) (c : Collection) (m : FullPlanMsg) : Res FullPlan :=
  getExtensionSet c.urnLoaded m.ext >>= fun set =>
  Plan.fromProto (Rel.fromProto (rest.ofSet c set)) m.plan >>= fun p => .ok ⟨p, set, m.version, m.adv⟩

/-- `Plan.ToProto`, `plan/plan.go:274-301`; the maps of the set are ranged over in the orders `o`. -/
def FullPlan.toProto (rest : RelReg) (c : Collection) (o : Orders) (p : FullPlan) : Res FullPlanMsg :=
  ExtSet.toProto o >>= fun ext =>
  p.plan.toProto (Rel.toProto (rest.ofSet c p.set).toReg) >>= fun m =>
  .ok ⟨m, ⟨ext.1, ext.2.map some⟩, p.version, p.adv⟩

end Verif

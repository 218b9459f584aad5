import Verif.Model.RelBuild
import Verif.Model.TypeNames
import Verif.Model.GoMap
/-!
# Plans

Models `plan/plan.go` (relations, roots, reading and writing the relations and parameter bindings of
a plan), the plan builders of `plan/builders.go` and the parameter checks of `plan/common.go`.

Reading and writing a relation tree is a parameter here (`dec`, `enc`), so the theorems hold
whatever it does; it is modelled in `Verif.Model.RelProto`. Extension sets are not part of this model
(`Verif.Model.ExtSet`).
-/

namespace Verif

/-- `Root`, `plan/plan.go:338-341` -/
structure Root where
  input : Rel
  names : List String

/-- `Relation`, `plan/plan.go:82-85`; nil is `none` -/
structure Relation where
  root : Option Root := none
  rel : Option Rel := none

/-- `DynamicParameterBinding`, `plan/common.go:21-24` (a nil value is `Lit.nil`) -/
structure Binding where
  anchor : UInt32
  value : Lit

/-- `Plan`, `plan/plan.go:145-154`: its relations, bindings and expected type URLs. The version, the
extension set and the registry are left out. -/
structure Plan where
  relations : List Relation
  bindings : List Binding
  urls : List String

/-! ## Root names -/

/-- `validateRootNamesForSchema`, `plan/plan.go:306-313` -/
def validateRootNames (ts : List Ty) (names : List String) : Res Unit :=
  if names.length ≠ depthFirstNameCount ts then .err else .ok ()

/-- `isRecordTypeSupported`, `plan/plan.go:319-334` -/
def isRecordTypeSupported : Rel → Bool
  | .extSingle _ _ (.undecoded _) => false
  | .extLeaf _ (.undecoded _) => false
  | .extMulti _ _ (.undecoded _) => false
  | .write _ _ _ _ _ _ _ => false
  | _ => true

/-- `proto.PlanRel` with relation messages of type `M`: the cases of `plan/plan.go:90-119` -/
inductive PlanRelMsg (M : Type) where
  | rel (m : M)
  | root (input : M) (names : List String)
  | unset

/-- `Relation.FromProto`, `plan/plan.go:87-120`; `dec` is `RelFromProto` -/
def Relation.fromProto (dec : M → Res Rel) : PlanRelMsg M → Res Relation
  | .rel m => dec m >>= fun r => .ok { rel := some r }
  | .root m names =>
      dec m >>= fun r =>
      (if isRecordTypeSupported r then
          r.recordType >>= fun ts => validateRootNames ts names
        else .ok ()) >>= fun _ =>
      .ok { root := some { input := r, names := names } }
  | .unset => .err

/-- `IsRoot`, `plan/plan.go:123-125` -/
def Relation.isRoot (r : Relation) : Bool := r.root.isSome

/-- `Relation.ToProto`, `plan/plan.go:130-136`, `Root.ToProtoPlanRel` 348-357; `enc` is `Rel.ToProto`
(`ToProtoPlanRel` of a relation wraps it, e.g. `plan/relations.go:2332-2338`). A nil relation
panics. -/
def Relation.toProto (enc : Rel → Res M) (r : Relation) : Res (PlanRelMsg M) :=
  match r.root with
  | some root => enc root.input >>= fun m => .ok (.root m root.names)
  | none =>
      match r.rel with
      | some x => enc x >>= fun m => .ok (.rel m)
      | none => .panic

/-- `GetRoots`, `plan/plan.go:198-206` -/
def Plan.getRoots (p : Plan) : List Root := p.relations.filterMap Relation.root

/-- `GetNonRootRelations`, `plan/plan.go:210-218`; a nil relation is `none` -/
def Plan.getNonRootRelations (p : Plan) : List (Option Rel) :=
  (p.relations.filter fun r => !r.isRoot).map Relation.rel

/-- The part of `proto.Plan` modelled (`plan/plan.go:292-300`) -/
structure PlanMsg (M : Type) where
  relations : List (PlanRelMsg M)
  bindings : List (UInt32 × PLit)
  urls : List String

/-- `FromProtoWithDecoder`, `plan/plan.go:235-272`, after the extension set has been read -/
def Plan.fromProto (dec : M → Res Rel) (m : PlanMsg M) : Res Plan :=
  Res.mapL (Relation.fromProto dec) m.relations >>= fun rels =>
  Res.mapL (fun b : UInt32 × PLit => literalFromProto b.2 >>= fun l => .ok (Binding.mk b.1 l))
    m.bindings >>= fun bs =>
  .ok { relations := rels, bindings := bs, urls := m.urls }

/-- `Plan.ToProto`, `plan/plan.go:274-301` -/
def Plan.toProto (enc : Rel → Res M) (p : Plan) : Res (PlanMsg M) :=
  Res.mapL (Relation.toProto enc) p.relations >>= fun rels =>
  Res.mapL (fun b : Binding => literalToProto b.value >>= fun l => .ok (b.anchor, l)) p.bindings
    >>= fun bs =>
  .ok { relations := rels, bindings := bs, urls := p.urls }

/-! ## Dynamic parameters -/

/-- `defFilter`, `plan/relations.go:793` -/
def defFilter : Expr := .lit (.prim (.bool true) (.prim .boolean NullabilityRequired 0))

mutual
/-- `walkExpr`, `plan/common.go:109-118`: the expressions `fn` is called on, in order. The visitor it
passes to `Visit` returns its argument, so `Visit` only calls it on the children in order; which
children those are follows the `Visit` methods cited in `Verif.Model.Visit` (`visit`). -/
def Expr.walk : Expr → List Expr
  | .nil => []
  | .lit l => [.lit l]
  | .fieldRef r f k => [.fieldRef r f k]
  | .ifThen ifs els => .ifThen ifs els :: (EPair.walkList ifs ++ els.walk)
  | .cast t e f => .cast t e f :: e.walk
  | .dynParam t r => [.dynParam t r]
  | .switch m cs els => .switch m cs els :: (m.walk ++ ECase.walkList cs ++ els.walk)
  | .singularOr v os => .singularOr v os :: (v.walk ++ Expr.walkList os)
  | .multiOr vs os => .multiOr vs os :: (Expr.walkList vs ++ ERow.walkList os)
  | .mapE n v kvs => .mapE n v kvs :: EPair.walkList kvs
  | .structE n v fs => .structE n v fs :: Expr.walkList fs
  | .listE n v es => .listE n v es :: Expr.walkList es
  | .scalar a args => .scalar a args :: EArg.walkList args
  | .window a w args ss ps => .window a w args ss ps :: EArg.walkList args
  | .lambda n v ps b => .lambda n v ps b :: b.walk
  | .scalarSubquery r => [.scalarSubquery r]
  | .inPredicate ns r => .inPredicate ns r :: Expr.walkList ns
  | .setPredicate o r => [.setPredicate o r]
  | .setComparison a b l r => .setComparison a b l r :: l.walk
/-- ... of a slice of expressions -/
def Expr.walkList : List Expr → List Expr
  | [] => []
  | e :: es => e.walk ++ Expr.walkList es
/-- ... of pairs -/
def EPair.walkList : List EPair → List Expr
  | [] => []
  | .mk a b :: ps => a.walk ++ b.walk ++ EPair.walkList ps
/-- ... of switch cases: the label is visited as an expression (`expr/expression.go:945`).
Simplification: a nil label is listed although `fn` is not called on it; `fn` ignores literals. -/
def ECase.walkList : List ECase → List Expr
  | [] => []
  | .mk l e :: cs => .lit l :: (e.walk ++ ECase.walkList cs)
/-- ... of option rows -/
def ERow.walkList : List ERow → List Expr
  | [] => []
  | .mk es :: rs => Expr.walkList es ++ ERow.walkList rs
/-- ... of function arguments (`expr/functions.go:440-446`) -/
def EArg.walkList : List EArg → List Expr
  | [] => []
  | .expr e :: as => e.walk ++ EArg.walkList as
  | .nil :: as => EArg.walkList as
  | .type _ :: as => EArg.walkList as
  | .enum _ :: as => EArg.walkList as
end

/-- the expression of a sort field -/
def ESort.expr : ESort → Expr
  | .mk e _ => e

/-- `walkRelExprs`, `plan/common.go:88-106`; `PostJoinFilter` is `plan/relations.go:871-876` -/
def Rel.walkedExprs : Rel → List Expr
  | .filter _ _ cond _ => [cond]
  | .project _ _ es _ => es
  | .join _ _ _ cond post _ _ => [cond, if post.isNil then defFilter else post]
  | .sort _ _ ss _ => ss.map ESort.expr
  | _ => []

/-- the type assertion and store `out[dp.ParameterReference] = dp.OutputType`,
`plan/common.go:80-82` -/
def noteParam (out : GoMap UInt32 Ty) : Expr → GoMap UInt32 Ty
  | .dynParam t r => out.set r t
  | _ => out

/-- the calls of `walkRelExprs` and `walkExpr` for one relation, `plan/common.go:78-84` -/
def Rel.noteOwn (r : Rel) (out : GoMap UInt32 Ty) : GoMap UInt32 Ty :=
  (r.walkedExprs.flatMap Expr.walk).foldl noteParam out

mutual
/-- `collectDynamicParams`, `plan/common.go:67-85` (inputs are never nil in `Rel`) -/
def Rel.collectParams (out : GoMap UInt32 Ty) : Rel → GoMap UInt32 Ty
  | .read c b k => (Rel.read c b k).noteOwn out
  | .project c i es a => (Rel.project c i es a).noteOwn (i.collectParams out)
  | .join c l r e p t a => (Rel.join c l r e p t a).noteOwn (r.collectParams (l.collectParams out))
  | .cross c l r a => (Rel.cross c l r a).noteOwn (r.collectParams (l.collectParams out))
  | .fetch c i o n a => (Rel.fetch c i o n a).noteOwn (i.collectParams out)
  | .aggregate c i ms es rs a => (Rel.aggregate c i ms es rs a).noteOwn (i.collectParams out)
  | .sort c i ss a => (Rel.sort c i ss a).noteOwn (i.collectParams out)
  | .filter c i e a => (Rel.filter c i e a).noteOwn (i.collectParams out)
  | .set c is op a => (Rel.set c is op a).noteOwn (Rel.collectParamsList out is)
  | .extSingle c i d => (Rel.extSingle c i d).noteOwn (i.collectParams out)
  | .extLeaf c d => (Rel.extLeaf c d).noteOwn out
  | .extMulti c is d => (Rel.extMulti c is d).noteOwn (Rel.collectParamsList out is)
  | .hashJoin c l r ks p t a =>
      (Rel.hashJoin c l r ks p t a).noteOwn (r.collectParams (l.collectParams out))
  | .mergeJoin c l r ks p t a =>
      (Rel.mergeJoin c l r ks p t a).noteOwn (r.collectParams (l.collectParams out))
  | .write c ns a s op i m => (Rel.write c ns a s op i m).noteOwn (i.collectParams out)
/-- the loop over the inputs, `plan/common.go:73-75` -/
def Rel.collectParamsList (out : GoMap UInt32 Ty) : List Rel → GoMap UInt32 Ty
  | [] => out
  | i :: is => Rel.collectParamsList (i.collectParams out) is
end

/-- the loop over the bindings, `plan/common.go:44-60` -/
def checkBindings (declared : GoMap UInt32 Ty) : List Binding → Res Unit
  | [] => .ok ()
  | b :: bs =>
      match declared.get b.anchor with
      | none => .err
      | some t =>
          b.value.getType >>= fun u =>
          (u.withNullability NullabilityUnspecified).equals
            (t.withNullability NullabilityUnspecified) >>= fun same =>
          if same then checkBindings declared bs else .err

/-- `ValidateParameterBindings`, `plan/common.go:35-63` -/
def validateBindings (root : Rel) (bindings : List Binding) : Res Unit :=
  if bindings.length = 0 then .ok ()
  else checkBindings (root.collectParams GoMap.empty) bindings

/-! ## Building a plan -/

/-- `relations[i].rel = o` for `i, o := range others`, `plan/builders.go:782-784` -/
def storeOthers (relations : List Relation) : Nat → List (Option Rel) → Res (List Relation)
  | _, [] => .ok relations
  | i, o :: os =>
      match relations[i]? with
      | some r => storeOthers (relations.set i { r with rel := o }) (i + 1) os
      | none => .panic

/-- `PlanWithBindings`, `plan/builders.go:764-797` -/
def planWithBindings (root : Option Rel) (names urls : List String) (bindings : List Binding)
    (others : List (Option Rel)) : Res Plan :=
  match root with
  | none => .err
  | some r =>
      r.recordType >>= fun ts =>
      validateRootNames ts names >>= fun _ =>
      validateBindings r bindings >>= fun _ =>
      storeOthers
        ({ root := some { input := r, names := names } } :: List.replicate others.length {}) 0 others
        >>= fun relations =>
      .ok { relations := relations, bindings := bindings, urls := urls }

/-- `Plan`, `plan/builders.go:799-801`, through `PlanWithTypes` 756-758 -/
def buildPlan (root : Option Rel) (names : List String) (others : List (Option Rel)) : Res Plan :=
  planWithBindings root names [] [] others

end Verif

import Verif.Model.Plan
import Verif.Spec.Rel
/-!
# Vocabulary for plans
-/

namespace Verif

mutual
/-- `names` names, depth first, every struct field found inside a type: the fields of a struct, and
those inside the element type of a list or the key and value types of a map. -/
inductive Labels : Ty → List String → Prop
  | struct (n v ts ns) : LabelsFields ts ns → Labels (.struct n v ts) ns
  | list (n v t ns) : Labels t ns → Labels (.list n v t) ns
  | map (n v k e ns ms) : Labels k ns → Labels e ms → Labels (.map n v k e) (ns ++ ms)
  | other (t) : (∀ n v ts, t ≠ .struct n v ts) → (∀ n v e, t ≠ .list n v e) →
      (∀ n v k e, t ≠ .map n v k e) → Labels t []
/-- ... every field of a record: its own name, then the names inside its type. -/
inductive LabelsFields : List Ty → List String → Prop
  | nil : LabelsFields [] []
  | cons (name t ts ns ms) : Labels t ns → LabelsFields ts ms →
      LabelsFields (t :: ts) (name :: (ns ++ ms))
end

/-- The expression of a function argument, if it is one. -/
def EArg.exprs : EArg → List Expr
  | .expr e => [e]
  | _ => []

/-- Both expressions of a pair. -/
def EPair.exprs : EPair → List Expr
  | .mk a b => [a, b]

/-- Label and result of a switch case. -/
def ECase.exprs : ECase → List Expr
  | .mk l e => [.lit l, e]

/-- The expressions of an option row. -/
def ERow.exprs : ERow → List Expr
  | .mk es => es

/-- All direct subexpressions of an expression. -/
def Expr.parts : Expr → List Expr
  | .nil | .lit _ | .dynParam _ _ | .scalarSubquery _ | .setPredicate _ _ => []
  | .fieldRef (.expr e) _ _ => [e]
  | .fieldRef _ _ _ => []
  | .ifThen ifs els => ifs.flatMap EPair.exprs ++ [els]
  | .cast _ e _ => [e]
  | .switch m cs els => m :: cs.flatMap ECase.exprs ++ [els]
  | .singularOr v os => v :: os
  | .multiOr vs os => vs ++ os.flatMap ERow.exprs
  | .mapE _ _ kvs => kvs.flatMap EPair.exprs
  | .structE _ _ es => es
  | .listE _ _ es => es
  | .scalar _ args => args.flatMap EArg.exprs
  | .window _ _ args ss ps => args.flatMap EArg.exprs ++ ss.map ESort.expr ++ ps
  | .lambda _ _ _ b => [b]
  | .inPredicate ns _ => ns
  | .setComparison _ _ l _ => [l]

/-- `x` is `e` or occurs somewhere inside it. (Relations inside subqueries are not looked into.) -/
inductive Expr.Within (x : Expr) : Expr → Prop
  | refl : Expr.Within x x
  | part (c e) : c ∈ e.parts → Expr.Within x c → Expr.Within x e

/-- The direct subexpressions a traversal by `Visit` reaches: all, except the root expression of a
field reference and the sort and partition expressions of a window function (C16). -/
def Expr.shownParts : Expr → List Expr
  | .fieldRef _ _ _ => []
  | .window _ _ args _ _ => args.flatMap EArg.exprs
  | e => e.parts

/-- `x` is `e` or reached from it by `Visit`. -/
inductive Expr.Shown (x : Expr) : Expr → Prop
  | refl : Expr.Shown x x
  | part (c e) : c ∈ e.shownParts → Expr.Shown x c → Expr.Shown x e

/-- The expressions of a measure: arguments and sort keys of its function, and its filter. -/
def Measure.exprs (m : Measure) : List Expr :=
  (match m.measure with
    | none => []
    | some f => f.args.flatMap EArg.exprs ++ f.sorts.map ESort.expr) ++ [m.filter]

/-- The expressions a relation itself holds (not those of its inputs). -/
def Rel.ownExprs : Rel → List Expr
  | .read _ b k => [b.filter, b.bestEffort] ++ (match k with | .virt rows => rows.flatten | _ => [])
  | .project _ _ es _ => es
  | .join _ _ _ cond post _ _ => [cond, post]
  | .aggregate _ _ ms es _ _ => es ++ ms.flatMap Measure.exprs
  | .sort _ _ ss _ => ss.map ESort.expr
  | .filter _ _ cond _ => [cond]
  | .hashJoin _ _ _ ks post _ _ | .mergeJoin _ _ _ ks post _ _ =>
      ks.flatMap (fun k => [k.left, k.right]) ++ [post]
  | .cross _ _ _ _ | .fetch _ _ _ _ _ | .set _ _ _ _ | .extSingle _ _ _ | .extLeaf _ _
  | .extMulti _ _ _ | .write _ _ _ _ _ _ _ => []

/-- A dynamic parameter with reference `p` and declared type `t` occurs in the relation tree. -/
inductive OccursIn (p : UInt32) (t : Ty) : Rel → Prop
  | here (r e) : e ∈ r.ownExprs → Expr.Within (.dynParam t p) e → OccursIn p t r
  | input (r i) : i ∈ r.getInputs → OccursIn p t i → OccursIn p t r

/-- The relations whose expressions are searched for parameters. -/
def Rel.Searched : Rel → Prop
  | .project _ _ _ _ | .join _ _ _ _ _ _ _ | .sort _ _ _ _ | .filter _ _ _ _ => True
  | _ => False

/-- ... occurs in an expression of a project, join, sort or filter, where `Visit` reaches it. -/
inductive ShownIn (p : UInt32) (t : Ty) : Rel → Prop
  | here (r e) : r.Searched → e ∈ r.ownExprs → Expr.Shown (.dynParam t p) e → ShownIn p t r
  | input (r i) : i ∈ r.getInputs → ShownIn p t i → ShownIn p t r

/-- The literal's type is the type `t`, apart from the outermost nullability. -/
def FitsType (l : Lit) (t : Ty) : Prop :=
  ∃ u, l.getType = .ok u ∧
    (u.withNullability NullabilityUnspecified).Same (t.withNullability NullabilityUnspecified)

/-- The literal is present and its type contains no function-argument enum and no missing
parameter. -/
def Lit.Typed (l : Lit) : Prop := ∃ u, l.getType = .ok u ∧ u.PlanType

/-- The null literal. -/
def Lit.IsNullValue : Lit → Prop
  | .null _ => True
  | _ => False

/-- What C44 demands of an accepted binding: a parameter of that number occurs with the type of the
value, and null is bound only to a nullable parameter. -/
def Binding.Proper (root : Rel) (b : Binding) : Prop :=
  ∃ t, OccursIn b.anchor t root ∧ FitsType b.value t ∧
    (b.value.IsNullValue → t.nullability = NullabilityNullable)

end Verif

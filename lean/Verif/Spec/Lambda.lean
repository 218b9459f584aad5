import Verif.Model.Lambda
import Verif.Spec.FieldRef
/-!
# Specification vocabulary for lambda scoping

`env` lists the parameter types of the enclosing lambdas, the innermost first.
-/

namespace Verif

/-- Parameter `field` of the lambda `k` steps out, followed along `child`, has type `t`. -/
def ParamHasType (env : List (List Ty)) (k : Nat) (field : Int32) (child : Seg) (t : Ty) : Prop :=
  ∃ ps p, env[k]? = some ps ∧ 0 ≤ field.toInt ∧ ps[field.toInt.toNat]? = some p ∧
    Walk child.steps p t

mutual
/-- Every lambda parameter reference in the expression is to a parameter of an enclosing lambda
(inside the expression, or in `env`), and carries the type of that parameter. -/
def Expr.Scoped (env : List (List Ty)) : Expr → Prop
  | .nil => True
  | .lit _ => True
  | .fieldRef root ref kt => ERoot.Scoped env root ∧
      ∀ k, root = .lambdaParam k →
        ∃ i c t, ref = .seg (.structField i c) ∧ kt = some t ∧ ParamHasType env k.toNat i c t
  | .ifThen ifs els => EPair.ScopedList env ifs ∧ els.Scoped env
  | .cast _ e _ => e.Scoped env
  | .dynParam _ _ => True
  | .switch m ifs els => m.Scoped env ∧ ECase.ScopedList env ifs ∧ els.Scoped env
  | .singularOr v os => v.Scoped env ∧ Expr.ScopedList env os
  | .multiOr vs os => Expr.ScopedList env vs ∧ ERow.ScopedList env os
  | .mapE _ _ kvs => EPair.ScopedList env kvs
  | .structE _ _ fs => Expr.ScopedList env fs
  | .listE _ _ fs => Expr.ScopedList env fs
  | .scalar _ args => EArg.ScopedList env args
  | .window _ _ args ss ps =>
      EArg.ScopedList env args ∧ ESort.ScopedList env ss ∧ Expr.ScopedList env ps
  | .lambda _ _ ps body => body.Scoped (ps :: env)
  | .scalarSubquery _ => True
  | .inPredicate ns _ => Expr.ScopedList env ns
  | .setPredicate _ _ => True
  | .setComparison _ _ l _ => l.Scoped env
/-- ... for each expression of a list -/
def Expr.ScopedList (env : List (List Ty)) : List Expr → Prop
  | [] => True
  | e :: es => e.Scoped env ∧ Expr.ScopedList env es
/-- ... for pairs -/
def EPair.ScopedList (env : List (List Ty)) : List EPair → Prop
  | [] => True
  | .mk a b :: es => a.Scoped env ∧ b.Scoped env ∧ EPair.ScopedList env es
/-- ... for switch cases -/
def ECase.ScopedList (env : List (List Ty)) : List ECase → Prop
  | [] => True
  | .mk _ b :: es => b.Scoped env ∧ ECase.ScopedList env es
/-- ... for options -/
def ERow.ScopedList (env : List (List Ty)) : List ERow → Prop
  | [] => True
  | .mk a :: es => Expr.ScopedList env a ∧ ERow.ScopedList env es
/-- ... for a root -/
def ERoot.Scoped (env : List (List Ty)) : ERoot → Prop
  | .expr e => e.Scoped env
  | .rootReference => True
  | .outer _ => True
  | .lambdaParam _ => True
/-- ... for arguments -/
def EArg.ScopedList (env : List (List Ty)) : List EArg → Prop
  | [] => True
  | .expr e :: es => e.Scoped env ∧ EArg.ScopedList env es
  | .nil :: es => EArg.ScopedList env es
  | .type _ :: es => EArg.ScopedList env es
  | .enum _ :: es => EArg.ScopedList env es
/-- ... for sort fields -/
def ESort.ScopedList (env : List (List Ty)) : List ESort → Prop
  | [] => True
  | .mk e _ :: es => e.Scoped env ∧ ESort.ScopedList env es
end

mutual
/-- The finished expressions put into the builder tree (wrapped expressions, roots of references,
sort fields) refer to no lambda outside themselves; map keys inside parameter references are
literals of plan types. -/
def BExp.ClosedParts : BExp → Prop
  | .nil => True
  | .wrap e _ => e.Scoped []
  | .cast _ _ b => b.ClosedParts
  | .dynParam _ _ => True
  | .scalarFn _ args => BArg.ClosedPartsList args
  | .windowFn _ _ args ss ps =>
      BArg.ClosedPartsList args ∧ ESort.ScopedList [] ss ∧ BExp.ClosedPartsList ps
  | .ref root _ => root.Scoped []
  | .lambdaParam _ c _ => c.KeysTyped
  | .lambda _ body => body.ClosedParts
/-- ... for arguments -/
def BArg.ClosedPartsList : List BArg → Prop
  | [] => True
  | .enum _ :: as => BArg.ClosedPartsList as
  | .expr b :: as => b.ClosedParts ∧ BArg.ClosedPartsList as
/-- ... for partitions -/
def BExp.ClosedPartsList : List BExp → Prop
  | [] => True
  | b :: bs => b.ClosedParts ∧ BExp.ClosedPartsList bs
end

/-- the parameter types as given, when none is nil -/
def BParams.tys (p : BParams) : List Ty := p.types.filterMap id

mutual
/-- Every lambda parameter reference of the builder tree is to an existing parameter of an
enclosing lambda. -/
def BExp.RefsInScope (env : List (List Ty)) : BExp → Prop
  | .nil => True
  | .wrap _ _ => True
  | .cast _ _ b => b.RefsInScope env
  | .dynParam _ _ => True
  | .scalarFn _ args => BArg.RefsInScopeList env args
  | .windowFn _ _ args _ ps => BArg.RefsInScopeList env args ∧ BExp.RefsInScopeList env ps
  | .ref _ _ => True
  | .lambdaParam i c k => ∃ t, ParamHasType env k.toNat i c t
  | .lambda none _ => True
  | .lambda (some p) body => body.RefsInScope (p.tys :: env)
/-- ... for arguments -/
def BArg.RefsInScopeList (env : List (List Ty)) : List BArg → Prop
  | [] => True
  | .enum _ :: as => BArg.RefsInScopeList env as
  | .expr b :: as => b.RefsInScope env ∧ BArg.RefsInScopeList env as
/-- ... for partitions -/
def BExp.RefsInScopeList (env : List (List Ty)) : List BExp → Prop
  | [] => True
  | b :: bs => b.RefsInScope env ∧ BExp.RefsInScopeList env bs
end

mutual
/-- Nothing in the tree is missing (a lambda may lack its body) and what references start from has a
type. -/
def BExp.Complete : BExp → Prop
  | .nil => False
  | .wrap _ _ => True
  | .cast _ _ b => b.Complete
  | .dynParam _ _ => True
  | .scalarFn _ args => BArg.CompleteList args
  | .windowFn _ _ args _ ps => BArg.CompleteList args ∧ BExp.CompleteList ps
  | .ref root ref => (∀ s, ref = .seg s → s ≠ .nil ∧ s.KeysTyped) ∧
      ∀ e, root = .expr e → ∃ t, e.getType = .ok t
  | .lambdaParam _ c _ => c.KeysTyped
  | .lambda _ body => body = .nil ∨ body.Complete
/-- ... for arguments -/
def BArg.CompleteList : List BArg → Prop
  | [] => True
  | .enum _ :: as => BArg.CompleteList as
  | .expr b :: as => b.Complete ∧ BArg.CompleteList as
/-- ... for partitions -/
def BExp.CompleteList : List BExp → Prop
  | [] => True
  | b :: bs => b.Complete ∧ BExp.CompleteList bs
end

end Verif

import Mathlib.Data.List.Forall2
import Verif.Model.FuncCall
import Verif.Spec.ExtSet
import Verif.Spec.Collection
/-!
# Vocabulary for statements about building function calls

Nothing here is used by the model.
-/

namespace Verif

/-- The argument is an expression or an enumeration value. -/
inductive EArg.IsValue : EArg → Prop where
  | expr : IsValue (.expr e)
  | enum : IsValue (.enum s)

/-- The type a function sees for an argument: the type of an expression, `CommonEnumType` for an
enumeration value, the type itself for a type. -/
inductive EArg.HasType : EArg → Ty → Prop where
  | expr : e.getType = .ok t → HasType (.expr e) t
  | enum : HasType (.enum s) (.enum true 0 0 "" [])
  | type : HasType (.type t) t

/-- The name `n` is the name asked for or a compound name made of it. -/
def NameOf (asked n : String) : Prop := n = asked ∨ ∃ sig, n = asked ++ ":" ++ sig

/-- `a`, the reference, declaration and type of a call with the arguments `args`, calls a function of
kind `k` of the collection, namely the implementation `v`: it is registered under its own id, in the
extension asked for and by the name asked for; the reference of the call stands for that id in the
set; and `v`'s parameters accept the types of the arguments and give the type of the call. -/
structure CallsImpl (c : Collection) (k : FuncKind) (s : ExtSet) (id : ExtId) (args : List EArg)
    (a : FnAttrs) (v : Variant) : Prop where
  compound : v.compoundName = .ok a.declaration
  registered : c.getFunc k ⟨v.urn, a.declaration⟩ = some v
  urn : v.urn = id.urn
  name : NameOf id.name a.declaration
  reference : s.decode .func a.funcRef = some ⟨v.urn, a.declaration⟩
  types : ∃ ts ret, List.Forall₂ EArg.HasType args ts ∧ v.impl.ret = some ret ∧
    (∃ after, matchArguments v.impl.nullability v.impl.args v.impl.variadic ts = .ok (true, after)) ∧
    evaluateTypeExpression (fun n => (s.anchor .type ⟨v.urn, n⟩).getD 0) v.impl.nullability ret
      v.impl.args v.impl.variadic ts = .ok a.outputType
/-- The parameter type names the type of the argument: it is not `any`, and a user-defined type has the
name that the argument's reference stands for. -/
def FTy.Names (s : ExtSet) (t : Ty) : FTy → Prop
  | .any .. => False
  | .udt _ _ name _ => ∀ n v ref ps, t = .udt n v ref ps → ∃ urn, s.decode .type ref = some ⟨urn, name⟩
  | .derivation _ f => f.Names s t
  | _ => True

/-- ... for a parameter -/
def FuncParam.Names (s : ExtSet) (p : FuncParam) (t : Ty) : Prop :=
  match p with
  | .value f => f.Names s t
  | .enum .. => True
  | _ => False

/-- A call of the function `decl` (a compound name) with the arguments and options given is built, for
the kind of function; the phase of a window or aggregate function is `InitialToResult`. -/
def BuildsCall (c : Collection) (k : FuncKind) (s : ExtSet) (id : ExtId)
    (opts : List (String × List String)) (args : List EArg) (decl : String) : Prop :=
  match k with
  | .scalar => ∃ a s', newScalarFunc c s id opts args = .ok (.scalar a args, s') ∧ a.declaration = decl
  | .window => ∀ inv, ∃ a w s', newWindowFunc c s id opts inv phaseInitialToResult args =
      .ok (.window a w args [] [], s') ∧ a.declaration = decl
  | .aggregate => ∀ inv sorts, ∃ f s', newAggregateFunc c s id opts inv phaseInitialToResult sorts args =
      .ok (f, s') ∧ f.a.declaration = decl ∧ f.args = args

/-- The parameters of an implementation accept the argument types (and it has a return type). -/
def Impl.Accepts (i : Impl) (ts : List Ty) : Prop :=
  ∃ ret anchor out, i.ret = some ret ∧
    evaluateTypeExpression anchor i.nullability ret i.args i.variadic ts = .ok out

/-- There is room for two more anchors in the set. -/
def ExtSet.Room (s : ExtSet) : Prop :=
  s.Compact ∧ (∀ k, s.count k + 2 < 2 ^ 32) ∧ s.urns.len + 2 < 2 ^ 32

/-- No other implementation of the function has the signature. -/
def ExtFile.OnlyOne (f : ExtFile) (k : FuncKind) (name : String) (i : Impl) : Prop :=
  ∀ q ∈ f.declared, q.2.name = name → q.1.ServesAs k → ∀ j ∈ q.2.impls,
    signatureKey j.args = signatureKey i.args → j = i

end Verif

import Verif.Spec.Collection
/-!
# Specification vocabulary for overloads of a function
-/

namespace Verif

/-- What a parameter asks for, its own parameters and nullability left out. -/
inductive ParamKind where
  | nothing
  | enum
  | type
  | any
  | prim (k : Prim)
  | single (k : Single)
  | decimal
  | list
  | map
  | struct
  | func
  | user (name : String)

/-- the kind of a declared type; all of `any`, `any1`, ... are of one kind -/
def FTy.kind : FTy → ParamKind
  | .prim k _ _ => .prim k
  | .any .. => .any
  | .enum .. => .enum
  | .single k _ _ => .single k
  | .decimal .. => .decimal
  | .list .. => .list
  | .map .. => .map
  | .struct .. => .struct
  | .func .. => .func
  | .udt _ _ name _ => .user name
  | .derivation _ f => f.kind

/-- the kind of a parameter -/
def FuncParam.kind : FuncParam → ParamKind
  | .enum .. => .enum
  | .value t => t.kind
  | .type _ => .type
  | .missing => .nothing

/-- The name of the user-defined type that the parameter asks for, if it does, has no underscore. -/
def FuncParam.PlainUser (p : FuncParam) : Prop := ∀ n, p.kind = .user n → '_' ∉ n.toList

/-- No other implementation of the function has parameters of the same kinds. -/
def ExtFile.Overloads (f : ExtFile) (k : FuncKind) (name : String) (i : Impl) : Prop :=
  ∀ q ∈ f.declared, q.2.name = name → q.1.ServesAs k → ∀ j ∈ q.2.impls,
    j.args.map FuncParam.kind = i.args.map FuncParam.kind → j = i

end Verif

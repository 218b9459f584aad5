import Verif.Model.Expr
import Verif.Spec.Types
/-!
# Specification vocabulary for expression equality

`Expr.canon` forgets exactly what `Equals` is meant to ignore; `Regular` describes the expressions
for which the equality theorems hold.
-/

namespace Verif

/-- Both float zeros are the same number. -/
def PVal.canon : PVal → PVal
  | .float32 b => .float32 (if zero32 b then 0 else b)
  | .float64 b => .float64 (if zero64 b then 0 else b)
  | v => v

mutual
/-- The literal up to the value/pointer representation of types and the sign of float zeros. -/
def Lit.canon : Lit → Lit
  | .nil => .nil
  | .null t => .null t.erase
  | .prim v t => .prim v.canon t.erase
  | .bytes k b t => .bytes k b t.erase
  | .struct vs t => .struct (Lit.canonList vs) t.erase
  | .list vs t => .list (Lit.canonList vs) t.erase
  | .map kvs t => .map (KeyValue.canonList kvs) t.erase
  | .proto v t => .proto v t.erase
  | .intervalYearToMonth y m n => .intervalYearToMonth y m n
  | .intervalCompound y m d s ss p n => .intervalCompound y m d s ss p n
/-- ... for each literal of a list -/
def Lit.canonList : List Lit → List Lit
  | [] => []
  | l :: ls => l.canon :: Lit.canonList ls
/-- ... for map entries -/
def KeyValue.canonList : List KeyValue → List KeyValue
  | [] => []
  | .mk k v :: ls => .mk k.canon v.canon :: KeyValue.canonList ls
end

/-- Not a NaN, and one of the listed instantiations. -/
def PVal.Comparable : PVal → Prop
  | .float32 b => nan32 b = false
  | .float64 b => nan64 b = false
  | .other => False
  | _ => True

/-- One of the listed dynamic types. -/
def ProtoVal.Comparable : ProtoVal → Prop
  | .other => False
  | _ => True

mutual
/-- Not nil, plan types only, no NaN anywhere. -/
def Lit.Regular : Lit → Prop
  | .nil => False
  | .null t => t.PlanType
  | .prim v t => v.Comparable ∧ t.PlanType
  | .bytes _ _ t => t.PlanType
  | .struct vs t => Lit.RegularList vs ∧ t.PlanType
  | .list vs t => Lit.RegularList vs ∧ t.PlanType
  | .map kvs t => KeyValue.RegularList kvs ∧ t.PlanType
  | .proto v t => v.Comparable ∧ t.PlanType
  | .intervalYearToMonth .. => True
  | .intervalCompound .. => True
/-- ... for each literal of a list -/
def Lit.RegularList : List Lit → Prop
  | [] => True
  | l :: ls => l.Regular ∧ Lit.RegularList ls
/-- ... for map entries -/
def KeyValue.RegularList : List KeyValue → Prop
  | [] => True
  | .mk k v :: ls => k.Regular ∧ v.Regular ∧ KeyValue.RegularList ls
end

/-- A segment chain up to its map keys' canonical form. -/
def Seg.canon : Seg → Seg
  | .nil => .nil
  | .mapKey k c => .mapKey k.canon c.canon
  | .structField f c => .structField f c.canon
  | .listElement f c => .listElement f c.canon

/-- Map keys are regular literals. -/
def Seg.Regular : Seg → Prop
  | .nil => True
  | .mapKey k c => k.Regular ∧ c.Regular
  | .structField _ c => c.Regular
  | .listElement _ c => c.Regular

/-- The reference part up to map keys' canonical form; a mask is its identity. -/
def ERef.canon : ERef → ERef
  | .seg s => .seg s.canon
  | r => r

/-- The reference is present. -/
def ERef.Regular : ERef → Prop
  | .nil => False
  | .seg s => s.isNil = false ∧ s.Regular
  | .mask _ => True

/-- Forget the function declaration (the anchor `funcRef` identifies the function). -/
def FnAttrs.canon (a : FnAttrs) : FnAttrs :=
  { a with declaration := "", outputType := a.outputType.erase }

/-- Forget the bounds type, which `Equals` does not compare. -/
def WinAttrs.canon (w : WinAttrs) : WinAttrs := { w with boundsType := 0 }

/-- A relation is its identity. -/
def RelRef.canon (r : RelRef) : RelRef := { r with types := [] }

mutual
/-- The expression with the ignored details forgotten: declarations (anchors are kept), the cached
type of a field reference, the bounds type of a window function, the schema of a relation (its
identity is kept), the value/pointer representation of types and the sign of float zeros. -/
def Expr.canon : Expr → Expr
  | .nil => .nil
  | .lit l => .lit l.canon
  | .fieldRef root ref _ => .fieldRef root.canon ref.canon none
  | .ifThen ifs els => .ifThen (EPair.canonList ifs) els.canon
  | .cast ty e f => .cast ty.erase e.canon f
  | .dynParam ty r => .dynParam ty.erase r
  | .switch m ifs els => .switch m.canon (ECase.canonList ifs) els.canon
  | .singularOr v os => .singularOr v.canon (Expr.canonList os)
  | .multiOr vs os => .multiOr (Expr.canonList vs) (ERow.canonList os)
  | .mapE n v kvs => .mapE n v (EPair.canonList kvs)
  | .structE n v fs => .structE n v (Expr.canonList fs)
  | .listE n v fs => .listE n v (Expr.canonList fs)
  | .scalar a args => .scalar a.canon (EArg.canonList args)
  | .window a w args ss ps =>
      .window a.canon w.canon (EArg.canonList args) (ESort.canonList ss) (Expr.canonList ps)
  | .lambda n v ps body => .lambda n v (Ty.eraseList ps) body.canon
  | .scalarSubquery r => .scalarSubquery r.canon
  | .inPredicate ns r => .inPredicate (Expr.canonList ns) r.canon
  | .setPredicate op r => .setPredicate op r.canon
  | .setComparison a b l r => .setComparison a b l.canon (r.map RelRef.canon)
/-- ... for each expression of a list -/
def Expr.canonList : List Expr → List Expr
  | [] => []
  | e :: es => e.canon :: Expr.canonList es
/-- ... for pairs -/
def EPair.canonList : List EPair → List EPair
  | [] => []
  | .mk a b :: es => .mk a.canon b.canon :: EPair.canonList es
/-- ... for switch cases -/
def ECase.canonList : List ECase → List ECase
  | [] => []
  | .mk a b :: es => .mk a.canon b.canon :: ECase.canonList es
/-- ... for options -/
def ERow.canonList : List ERow → List ERow
  | [] => []
  | .mk a :: es => .mk (Expr.canonList a) :: ERow.canonList es
/-- ... for a root -/
def ERoot.canon : ERoot → ERoot
  | .expr e => .expr e.canon
  | .rootReference => .rootReference
  | .outer n => .outer n
  | .lambdaParam n => .lambdaParam n
/-- ... for an argument -/
def EArg.canon : EArg → EArg
  | .nil => .nil
  | .expr e => .expr e.canon
  | .type t => .type t.erase
  | .enum s => .enum s
/-- ... for arguments -/
def EArg.canonList : List EArg → List EArg
  | [] => []
  | e :: es => e.canon :: EArg.canonList es
/-- ... for sort fields -/
def ESort.canonList : List ESort → List ESort
  | [] => []
  | .mk e k :: es => .mk e.canon k :: ESort.canonList es
end

mutual
/-- Nothing is missing (only a switch may lack its default), literals are regular, types are plan
types, and scalar invocations of one function anchor all have the same number of arguments
(`arity`). -/
def Expr.Regular (arity : UInt32 → Nat) : Expr → Prop
  | .nil => False
  | .lit l => l.Regular
  | .fieldRef root ref _ => root.Regular arity ∧ ref.Regular
  | .ifThen ifs els => EPair.RegularList arity ifs ∧ els.Regular arity
  | .cast ty e _ => ty.PlanType ∧ e.Regular arity
  | .dynParam ty _ => ty.PlanType
  | .switch m ifs els =>
      m.Regular arity ∧ ECase.RegularList arity ifs ∧ (els.isNil = true ∨ els.Regular arity)
  | .singularOr v os => v.Regular arity ∧ Expr.RegularList arity os
  | .multiOr vs os => Expr.RegularList arity vs ∧ ERow.RegularList arity os
  | .mapE _ _ kvs => EPair.RegularList arity kvs
  | .structE _ _ fs => Expr.RegularList arity fs
  | .listE _ _ fs => Expr.RegularList arity fs
  | .scalar a args =>
      a.outputType.PlanType ∧ args.length = arity a.funcRef ∧ EArg.RegularList arity args
  | .window a _ args ss ps =>
      a.outputType.PlanType ∧ EArg.RegularList arity args ∧ ESort.RegularList arity ss ∧
        Expr.RegularList arity ps
  | .lambda _ _ ps body => Ty.PlanTypeList ps ∧ body.Regular arity
  | .scalarSubquery _ => True
  | .inPredicate ns _ => Expr.RegularList arity ns
  | .setPredicate _ _ => True
  | .setComparison _ _ l r => l.Regular arity ∧ r.isSome = true
/-- ... for each expression of a list -/
def Expr.RegularList (arity : UInt32 → Nat) : List Expr → Prop
  | [] => True
  | e :: es => e.Regular arity ∧ Expr.RegularList arity es
/-- ... for pairs -/
def EPair.RegularList (arity : UInt32 → Nat) : List EPair → Prop
  | [] => True
  | .mk a b :: es => a.Regular arity ∧ b.Regular arity ∧ EPair.RegularList arity es
/-- ... for switch cases -/
def ECase.RegularList (arity : UInt32 → Nat) : List ECase → Prop
  | [] => True
  | .mk a b :: es => a.Regular ∧ b.Regular arity ∧ ECase.RegularList arity es
/-- ... for options -/
def ERow.RegularList (arity : UInt32 → Nat) : List ERow → Prop
  | [] => True
  | .mk a :: es => Expr.RegularList arity a ∧ ERow.RegularList arity es
/-- ... for a root -/
def ERoot.Regular (arity : UInt32 → Nat) : ERoot → Prop
  | .expr e => e.Regular arity
  | .rootReference => True
  | .outer _ => True
  | .lambdaParam _ => True
/-- ... for an argument -/
def EArg.Regular (arity : UInt32 → Nat) : EArg → Prop
  | .nil => True
  | .expr e => e.Regular arity
  | .type t => t.PlanType
  | .enum _ => True
/-- ... for arguments -/
def EArg.RegularList (arity : UInt32 → Nat) : List EArg → Prop
  | [] => True
  | e :: es => e.Regular arity ∧ EArg.RegularList arity es
/-- ... for sort fields -/
def ESort.RegularList (arity : UInt32 → Nat) : List ESort → Prop
  | [] => True
  | .mk e _ :: es => e.Regular arity ∧ ESort.RegularList arity es
end

/-- Two objects found to be one object have the same contents. -/
def Sharing.Sound (sh : Sharing) : Prop :=
  (∀ a b, sh.seg a b = true → a = b) ∧ (∀ a b, sh.arg a b = true → a = b)

/-- the condition of a clause -/
def EPair.cond : EPair → Expr
  | .mk a _ => a
/-- the result of a clause -/
def EPair.result : EPair → Expr
  | .mk _ b => b
/-- the result of a switch case -/
def ECase.result : ECase → Expr
  | .mk _ e => e
/-- the label of a switch case -/
def ECase.label : ECase → Lit
  | .mk l _ => l

/-- The type admits null. -/
def Ty.IsNullable (t : Ty) : Prop := t.nullability = NullabilityNullable

/-- The same type when top-level nullability is disregarded. -/
def Ty.SameKind (t u : Ty) : Prop :=
  (t.withNullability NullabilityUnspecified).Same (u.withNullability NullabilityUnspecified)

/-- An interval_day type at the top level. -/
def Ty.IsIntervalDay : Ty → Prop
  | .prec .intervalDay _ _ _ => True
  | _ => False

end Verif

import Verif.Spec.ExprProto
import Verif.Spec.Alike
import Verif.Spec.Value
/-!
# Specification vocabulary: the details `Equals` does not look at are settled elsewhere
-/

namespace Verif

/-- Not a negative zero, which `==` does not tell from zero. -/
def PVal.NoMinusZero : PVal → Prop
  | .float32 b => b ≠ 0x80000000
  | .float64 b => b ≠ 0x8000000000000000
  | _ => True

mutual
/-- No interval_compound type and no negative zero. -/
def Lit.Settled : Lit → Prop
  | .nil => True
  | .null t => t.NoCompound
  | .prim v t => v.NoMinusZero ∧ t.NoCompound
  | .bytes _ _ t => t.NoCompound
  | .struct fs t => Lit.SettledList fs ∧ t.NoCompound
  | .list vs t => Lit.SettledList vs ∧ t.NoCompound
  | .map kvs t => KeyValue.SettledList kvs ∧ t.NoCompound
  | .proto _ t => t.NoCompound
  | .intervalYearToMonth .. => True
  | .intervalCompound .. => True
/-- ... for each literal of a list -/
def Lit.SettledList : List Lit → Prop
  | [] => True
  | l :: ls => l.Settled ∧ Lit.SettledList ls
/-- ... for each entry of a map -/
def KeyValue.SettledList : List KeyValue → Prop
  | [] => True
  | .mk k v :: kvs => k.Settled ∧ v.Settled ∧ KeyValue.SettledList kvs
end

/-- ... for each map key of a path -/
def Seg.Settled : Seg → Prop
  | .nil => True
  | .mapKey k c => k.Settled ∧ c.Settled
  | .structField _ c => c.Settled
  | .listElement _ c => c.Settled

/-- ... for the reference part -/
def ERef.Settled : ERef → Prop
  | .seg s => s.Settled
  | _ => True

/-- What there is besides the expression: the bounds type all window functions have, and the columns
of the relation at an address. -/
structure Settings where
  bounds : Int32
  columns : Nat → List Ty

/-- The relation is the one at its address. -/
def RelRef.Settled (g : Settings) (r : RelRef) : Prop := r.types = g.columns r.addr

mutual
/-- Literals contain no negative zero, no type is an interval_compound type, all window functions have
one bounds type, and relations at one address have the same columns. -/
def Expr.Settled (g : Settings) : Expr → Prop
  | .nil => True
  | .lit l => l.Settled
  | .fieldRef root ref _ => root.Settled g ∧ ref.Settled
  | .ifThen ifs els => EPair.SettledList g ifs ∧ els.Settled g
  | .cast ty e _ => ty.NoCompound ∧ e.Settled g
  | .dynParam ty _ => ty.NoCompound
  | .switch m ifs els => m.Settled g ∧ ECase.SettledList g ifs ∧ els.Settled g
  | .singularOr v os => v.Settled g ∧ Expr.SettledList g os
  | .multiOr vs os => Expr.SettledList g vs ∧ ERow.SettledList g os
  | .mapE _ _ kvs => EPair.SettledList g kvs
  | .structE _ _ fs => Expr.SettledList g fs
  | .listE _ _ fs => Expr.SettledList g fs
  | .scalar a args => a.outputType.NoCompound ∧ EArg.SettledList g args
  | .window a w args ss ps => a.outputType.NoCompound ∧ w.boundsType = g.bounds ∧
      EArg.SettledList g args ∧ ESort.SettledList g ss ∧ Expr.SettledList g ps
  | .lambda _ _ ps body => Ty.NoCompoundList ps ∧ body.Settled g
  | .scalarSubquery r => r.Settled g
  | .inPredicate ns r => Expr.SettledList g ns ∧ r.Settled g
  | .setPredicate _ r => r.Settled g
  | .setComparison _ _ l r => l.Settled g ∧ ∀ x ∈ r, RelRef.Settled g x
/-- ... for each expression of a list -/
def Expr.SettledList (g : Settings) : List Expr → Prop
  | [] => True
  | e :: es => e.Settled g ∧ Expr.SettledList g es
/-- ... for pairs -/
def EPair.SettledList (g : Settings) : List EPair → Prop
  | [] => True
  | .mk a b :: es => a.Settled g ∧ b.Settled g ∧ EPair.SettledList g es
/-- ... for switch cases -/
def ECase.SettledList (g : Settings) : List ECase → Prop
  | [] => True
  | .mk a b :: es => a.Settled ∧ b.Settled g ∧ ECase.SettledList g es
/-- ... for options -/
def ERow.SettledList (g : Settings) : List ERow → Prop
  | [] => True
  | .mk a :: es => Expr.SettledList g a ∧ ERow.SettledList g es
/-- ... for a root -/
def ERoot.Settled (g : Settings) : ERoot → Prop
  | .expr e => e.Settled g
  | .rootReference => True
  | .outer _ => True
  | .lambdaParam _ => True
/-- ... for an argument -/
def EArg.Settled (g : Settings) : EArg → Prop
  | .nil => True
  | .expr e => e.Settled g
  | .type t => t.NoCompound
  | .enum _ => True
/-- ... for arguments -/
def EArg.SettledList (g : Settings) : List EArg → Prop
  | [] => True
  | e :: es => e.Settled g ∧ EArg.SettledList g es
/-- ... for sort fields -/
def ESort.SettledList (g : Settings) : List ESort → Prop
  | [] => True
  | .mk e _ :: es => e.Settled g ∧ ESort.SettledList g es
end

/-- Inside a lambda: its parameters are nearest. -/
def Shape.under (s : Shape) (ps : List Ty) : Shape :=
  { s with lam := fun n => if n = 0 then .struct NullabilityRequired 0 ps else s.lam (n - 1) }

mutual
/-- Wherever the type of the expression comes from the type recorded in a field reference, that is the
type at the end of the path. -/
def Expr.TypesKnown (s : Shape) : Expr → Prop
  | .fieldRef root ref known => root.TypesKnown s ∧ ∃ p T t, ref = .seg p ∧ root.HasType s T ∧
      known = some t ∧ Walk p.steps T t
  | .ifThen _ els => els.TypesKnown s
  | .switch _ ifs els => ECase.TypesKnownList s ifs ∧ els.TypesKnown s
  | .mapE _ _ kvs => EPair.TypesKnownList s kvs
  | .structE _ _ fs => Expr.TypesKnownList s fs
  | .listE _ _ es => Expr.TypesKnownList s es
  | .lambda _ _ ps body => body.TypesKnown (s.under ps)
  | _ => True
/-- ... for each expression of a list -/
def Expr.TypesKnownList (s : Shape) : List Expr → Prop
  | [] => True
  | e :: es => e.TypesKnown s ∧ Expr.TypesKnownList s es
/-- ... for keys and values -/
def EPair.TypesKnownList (s : Shape) : List EPair → Prop
  | [] => True
  | .mk a b :: es => a.TypesKnown s ∧ b.TypesKnown s ∧ EPair.TypesKnownList s es
/-- ... for the results of cases -/
def ECase.TypesKnownList (s : Shape) : List ECase → Prop
  | [] => True
  | .mk _ b :: es => b.TypesKnown s ∧ ECase.TypesKnownList s es
/-- ... for a root -/
def ERoot.TypesKnown (s : Shape) : ERoot → Prop
  | .expr e => e.TypesKnown s
  | .rootReference => True
  | .outer _ => True
  | .lambdaParam _ => True
end

end Verif

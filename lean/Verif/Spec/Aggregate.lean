import Verif.Model.Aggregate
import Verif.Spec.Expr
import Verif.Spec.Rel
/-!
# Vocabulary for aggregates
-/

namespace Verif

/-- The reference `r` denotes, among the expressions `es`, `e` itself or an expression that compares
as equal to it. -/
def RefDenotes (sh : Sharing) (es : List Expr) (e : Expr) (r : UInt32) : Prop :=
  ∃ x, es[r.toNat]? = some x ∧ (x = e ∨ Expr.equals sh x e = .ok true)

/-- `cols` are the columns of an aggregate: for each reference of each grouping set the type of the
expression it denotes, then the output types of the measures. -/
def AggregateSchema (es : List Expr) (refs : List (List UInt32)) (ms : List Measure)
    (cols : List Ty) : Prop :=
  ∃ gs ts, cols = gs ++ ts ∧
    List.Forall₂ (fun (r : UInt32) t => ∃ e, es[r.toNat]? = some e ∧ e.getType = .ok t) refs.flatten gs ∧
    List.Forall₂ (fun (m : Measure) t => ∃ f, m.measure = some f ∧ t = f.a.outputType) ms ts

/-- Equal identities mean the same expression. -/
def Coherent (ps : List PExpr) : Prop := ∀ a ∈ ps, ∀ b ∈ ps, a.addr = b.addr → a.e = b.e

/-- The type of the column at a (signed) position. -/
def ColumnAt (ts : List Ty) (i : Int32) (t : Ty) : Prop := 0 ≤ i.toInt ∧ ts[i.toInt.toNat]? = some t

end Verif

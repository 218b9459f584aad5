import Verif.Spec.Rel
/-!
# Vocabulary for virtual tables
-/

namespace Verif

/-- The expression has a type, and it is `t` (up to value/pointer representation). -/
def Expr.OfType (e : Expr) (t : Ty) : Prop := ∃ u, e.getType = .ok u ∧ t.Same u

/-- There is at least one row, and every row has one value per column, of the type the first row has
there. -/
def RowsMatch (names : List String) (rows : List (List Expr)) : Prop :=
  ∃ first, rows.head? = some first ∧ first.length = names.length ∧
    ∃ types, Res.mapL Expr.getType first = .ok types ∧
      ∀ row ∈ rows, List.Forall₂ Expr.OfType row types

/-- Every value has a type, one that plans can hold. -/
def ValuesTyped (rows : List (List Expr)) : Prop :=
  ∀ row ∈ rows, ∀ e ∈ row, ∃ t, e.getType = .ok t ∧ t.PlanType

/-- The table built from rows that are accepted. -/
def IsTableOf (names : List String) (remap : Option (List Int32)) (rows : List (List Expr)) (r : Rel) :
    Prop :=
  ∃ types, (∃ first, rows.head? = some first ∧ Res.mapL Expr.getType first = .ok types) ∧
    r = .read ⟨none, remap, none⟩ ⟨⟨names, NullabilityRequired, 0, types⟩, .nil, .nil, none, none⟩
      (.virt rows)

end Verif

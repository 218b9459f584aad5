import Verif.Model.Subquery
import Verif.Spec.Subquery
import Verif.Props.ExprProto
/-!
# C95: the builders of subqueries
-/

namespace Verif

/-- what one of the four builders returns -/
inductive BuiltSubquery : Res Expr → Prop
  | inPredicate (ns h) : BuiltSubquery (buildInPredicate ns h)
  | setPredicate (r op) : BuiltSubquery (buildSetPredicate r op)
  | scalar (r) : BuiltSubquery (buildScalarSubquery r)
  | setComparison (l r red cmp) : BuiltSubquery (buildSetComparison l r red cmp)

/-- C95, as stated: what a builder returns makes sense and has a type. -/
def C95_statement : Prop :=
  ∀ (b : Res Expr) (e : Expr), BuiltSubquery b → b = .ok e → e.GoodSubquery ∧ ∃ t, e.getType = .ok t

theorem isNil_iff (e : Expr) : e.isNil = true ↔ e = .nil := by
  cases e <;> simp [Expr.isNil]

/-- **C95 (partial): IN.** The builder accepts exactly what makes sense. Missing: relations with 2^31 columns or
more, whose number of columns is cut to 32 bits. -/
theorem C95_in_partial (ns : List Expr) (h : RelRef) (hc : h.types.length < 2 ^ 31) (e : Expr) :
    buildInPredicate ns (some h) = .ok e ↔ e = .inPredicate ns h ∧ e.GoodSubquery := by
  have hcount : (fieldCount h.types).toInt = h.types.length := by
    unfold fieldCount
    rw [Int32.toInt_ofNat_of_lt hc]
  have hany : (¬ ns.any Expr.isNil = true) ↔ ∀ n ∈ ns, n ≠ .nil := by
    rw [List.any_eq_true]
    constructor
    · intro h n hn e
      exact h ⟨n, hn, (isNil_iff n).2 e⟩
    · rintro h ⟨n, hn, e⟩
      exact h n hn ((isNil_iff n).1 e)
  simp only [buildInPredicate, hcount]
  constructor
  · intro he
    split at he
    · cases he
    next h1 =>
    split at he
    · cases he
    next h2 =>
    split at he
    · cases he
    next h3 =>
    cases he
    refine ⟨rfl, .inPredicate _ _ ?_ (hany.1 h2) (by omega)⟩
    rintro rfl
    exact h1 rfl
  · rintro ⟨rfl, hg⟩
    cases hg with
    | inPredicate _ _ h1 h2 h3 =>
      have : ¬ ns.length = 0 := fun h => h1 (List.length_eq_zero_iff.1 h)
      rw [if_neg this, if_neg (hany.2 h2), if_neg (by omega)]

/-- **C95: EXISTS and UNIQUE.** The builder accepts exactly what makes sense. -/
theorem C95_exists (r : RelRef) (op : Int32) (e : Expr) :
    buildSetPredicate (some r) op = .ok e ↔ e = .setPredicate op r ∧ e.GoodSubquery := by
  simp only [buildSetPredicate]
  constructor
  · intro he
    split at he
    · cases he
    next h => cases he; exact ⟨rfl, .setPredicate _ _ h⟩
  · rintro ⟨rfl, hg⟩
    cases hg with
    | setPredicate _ _ h => rw [if_neg h]

/-- **C95 (partial): scalar subqueries.** With a relation of one column the builder makes a subquery of the type
of that column. Missing: the builder also accepts other relations (`C95_negation`). -/
theorem C95_scalar_partial (r : RelRef) (t : Ty) (h : r.types = [t]) :
    buildScalarSubquery (some r) = .ok (.scalarSubquery r) ∧ (Expr.scalarSubquery r).GoodSubquery ∧
      (Expr.scalarSubquery r).getType = .ok t := by
  refine ⟨rfl, .scalar r t h, ?_⟩
  simp [Expr.getType, h]

/-- **C95 (partial): ANY and ALL.** With a relation of one column the builder accepts exactly what makes sense.
Missing: the builder does not look at the columns (`C95_negation_comparison`). -/
theorem C95_comparison_partial (l : Expr) (r : RelRef) (red cmp : Int32) (t : Ty) (h : r.types = [t]) (e : Expr) :
    buildSetComparison l (some r) red cmp = .ok e ↔ e = .setComparison red cmp l (some r) ∧ e.GoodSubquery := by
  have hl : (¬ l.isNil = true) ↔ l ≠ .nil := not_congr (isNil_iff l)
  simp only [buildSetComparison]
  constructor
  · intro he
    split at he
    · cases he
    next h1 =>
    split at he
    · cases he
    next h2 =>
    split at he
    · cases he
    next h3 => cases he; exact ⟨rfl, .setComparison _ _ _ _ t h1 h2 (hl.1 h3) h⟩
  · rintro ⟨rfl, hg⟩
    cases hg with
    | setComparison _ _ _ _ _ h1 h2 h3 _ => rw [if_neg h1, if_neg h2, if_neg (hl.2 h3)]

/-- **C95**: without a relation no builder returns anything. -/
theorem C95_no_relation (ns : List Expr) (l : Expr) (op red cmp : Int32) :
    buildInPredicate ns none = .err ∧ buildSetPredicate none op = .err ∧ buildScalarSubquery none = .err ∧
      buildSetComparison l none red cmp = .err := by
  refine ⟨rfl, rfl, rfl, ?_⟩
  simp only [buildSetComparison]
  split <;> [rfl; split <;> [rfl; split <;> rfl]]

/-- **C95**: IN, EXISTS, UNIQUE, ANY and ALL are conditions, whatever they are built from. -/
theorem C95_boolean (b : Res Expr) (e : Expr) (hb : BuiltSubquery b) (h : b = .ok e)
    (hs : ∀ r, e ≠ .scalarSubquery r) : e.getType = .ok (.prim .boolean NullabilityRequired 0) := by
  cases hb with
  | scalar r =>
    cases r with
    | none => cases h
    | some r => cases h; exact absurd rfl (hs r)
  | inPredicate ns r =>
    cases r with
    | none => cases h
    | some r =>
      simp only [buildInPredicate] at h
      split at h
      · cases h
      split at h
      · cases h
      split at h <;> cases h
      simp [Expr.getType]
  | setPredicate r op =>
    cases r with
    | none => cases h
    | some r =>
      simp only [buildSetPredicate] at h
      split at h <;> cases h
      simp [Expr.getType]
  | setComparison l r red cmp =>
    simp only [buildSetComparison] at h
    split at h
    · cases h
    split at h
    · cases h
    split at h
    · cases h
    split at h <;> cases h
    simp [Expr.getType]

/-- **C95 negation: scalar subqueries.** Any relation is accepted; unless it has exactly one column, asking the
result for its type panics. -/
theorem C95_negation_scalar (r : RelRef) (h : r.types.length ≠ 1) :
    buildScalarSubquery (some r) = .ok (.scalarSubquery r) ∧ ¬ (Expr.scalarSubquery r).GoodSubquery ∧
      (Expr.scalarSubquery r).getType = .panic := by
  refine ⟨rfl, ?_, ?_⟩
  · intro hg
    cases hg with
    | scalar _ t ht => rw [ht] at h; exact h rfl
  · unfold Expr.getType
    match hr : r.types with
    | [] => rfl
    | [t] => rw [hr] at h; exact absurd rfl h
    | _ :: _ :: _ => rfl

/-- **C95 negation**: a relation with two columns -/
theorem C95_negation : ¬ C95_statement := by
  intro h
  obtain ⟨h1, h2, -⟩ := C95_negation_scalar ⟨0, [.prim .i32 2 0, .prim .i64 2 0]⟩ (by decide)
  exact h2 (h _ _ (.scalar _) h1).1

/-- **C95 negation: ANY and ALL.** An expression is compared with a relation of two columns, or none. -/
theorem C95_negation_comparison (l : Expr) (r : RelRef) (red cmp : Int32) (hl : l ≠ .nil) (h1 : red ≠ 0) (h2 : cmp ≠ 0)
    (h : r.types.length ≠ 1) : ∃ e, buildSetComparison l (some r) red cmp = .ok e ∧ ¬ e.GoodSubquery := by
  refine ⟨.setComparison red cmp l (some r), ?_, ?_⟩
  · simp only [buildSetComparison, if_neg h1, if_neg h2, if_neg (fun hn => hl ((isNil_iff l).1 hn))]
  · intro hg
    cases hg with
    | setComparison _ _ _ _ t _ _ _ ht => rw [ht] at h; exact h rfl

-- non-trivial cases of the hypotheses
example : buildInPredicate [.lit exLit7, .lit exLit7] (some ⟨0, [.prim .i32 2 0, .prim .i64 2 0]⟩) =
    .ok (.inPredicate [.lit exLit7, .lit exLit7] ⟨0, [.prim .i32 2 0, .prim .i64 2 0]⟩) :=
  (C95_in_partial _ _ (by simp) _).2 ⟨rfl, .inPredicate _ _ (by simp) (by simp) rfl⟩
example : ∃ e, buildSetComparison (.lit exLit7) (some ⟨0, [.prim .i32 2 0]⟩) 1 2 = .ok e ∧ e.GoodSubquery :=
  ⟨_, (C95_comparison_partial _ _ 1 2 _ rfl _).2 ⟨rfl, .setComparison _ _ _ _ _ (by decide) (by decide) (by simp) rfl⟩,
    .setComparison _ _ _ _ _ (by decide) (by decide) (by simp) rfl⟩
example : ∃ e, buildSetComparison (.lit exLit7) (some ⟨0, [.prim .i32 2 0, .prim .i32 2 0]⟩) 1 2 = .ok e ∧
    ¬ e.GoodSubquery := C95_negation_comparison _ _ _ _ (by simp) (by decide) (by decide) (by simp)

end Verif

import Verif.Spec.VirtualTable
import Verif.Lemmas.Rel
import Verif.Lemmas.Types
import Verif.Props.RelProto
/-!
# Virtual tables (C49)
-/

namespace Verif

/-- The check of one row, exactly: it passes iff the row's values have the types of the first columns,
one each. -/
theorem checkRowTypes_iff (ts : List Ty) (hts : ∀ t ∈ ts, t.PlanType) :
    ∀ (row : List Expr) (j : Nat), checkRowTypes ts j row = .ok () ↔
      ∃ pre rest, ts.drop j = pre ++ rest ∧ List.Forall₂ Expr.OfType row pre
  | [], j => by
      simp only [checkRowTypes, true_iff]
      exact ⟨[], ts.drop j, rfl, .nil⟩
  | v :: vs, j => by
      by_cases hj : j < ts.length
      · have hi : Res.index ts j = .ok ts[j] := Res.index_nat _ _ hj
        have hp := hts _ (List.getElem_mem hj)
        simp only [checkRowTypes, hi, Res.ok_bind, Res.bind_eq_ok]
        constructor
        · rintro ⟨u, hu, b, hb, h⟩
          cases b with
          | false => cases h
          | true =>
            obtain ⟨pre, rest, hd, hf⟩ := (checkRowTypes_iff ts hts vs (j + 1)).1 h
            refine ⟨ts[j] :: pre, rest, ?_, .cons ⟨u, hu, (equals_true_iff hp).1 hb⟩ hf⟩
            rw [List.drop_eq_getElem_cons hj, hd]; rfl
        · rintro ⟨pre, rest, hd, hf⟩
          rw [List.drop_eq_getElem_cons hj] at hd
          cases hf with
          | cons h hf =>
            simp only [List.cons_append, List.cons.injEq] at hd
            obtain ⟨rfl, hd⟩ := hd
            obtain ⟨u, hu, hs⟩ := h
            exact ⟨u, hu, true, (equals_true_iff hp).2 hs,
              (checkRowTypes_iff ts hts vs (j + 1)).2 ⟨_, _, hd, hf⟩⟩
      · have hi : Res.index ts j = .panic := Res.index_oob _ _ (by omega)
        simp only [checkRowTypes, hi, Res.panic_bind, reduceCtorEq, false_iff]
        rintro ⟨pre, rest, hd, hf⟩
        rw [List.drop_eq_nil_of_le (by omega)] at hd
        cases hf
        simp at hd

/-- The check of a row of typed values that is not longer than the columns does not panic. -/
theorem checkRowTypes_ne_panic (ts : List Ty) (hts : ∀ t ∈ ts, t.PlanType) :
    ∀ (row : List Expr) (j : Nat), (∀ e ∈ row, ∃ t, e.getType = .ok t) → j + row.length ≤ ts.length →
      checkRowTypes ts j row ≠ .panic
  | [], j, _, _ => by simp [checkRowTypes]
  | v :: vs, j, ht, hl => by
      simp only [List.length_cons] at hl
      have hj : j < ts.length := by omega
      have hi : Res.index ts j = .ok ts[j] := Res.index_nat _ _ hj
      obtain ⟨u, hu⟩ := ht v (by simp)
      obtain ⟨b, hb, -⟩ := equals_spec ts[j] u (hts _ (List.getElem_mem hj))
      simp only [checkRowTypes, hi, hu, hb, Res.ok_bind]
      cases b with
      | false => simp
      | true =>
        exact checkRowTypes_ne_panic ts hts vs (j + 1) (fun e he => ht e (List.mem_cons_of_mem _ he))
          (by omega)

theorem checkRows_iff (ts : List Ty) (hts : ∀ t ∈ ts, t.PlanType) :
    ∀ rows : List (List Expr), checkRows ts rows = .ok () ↔
      ∀ row ∈ rows, ∃ pre rest, ts = pre ++ rest ∧ List.Forall₂ Expr.OfType row pre
  | [] => by simp [checkRows]
  | row :: rows => by
      simp only [checkRows, Res.bind_eq_ok, List.forall_mem_cons]
      rw [checkRows_iff ts hts rows]
      have h := checkRowTypes_iff ts hts row 0
      rw [List.drop_zero] at h
      rw [← h]
      constructor
      · rintro ⟨_, h₁, h₂⟩; exact ⟨h₁, h₂⟩
      · rintro ⟨h₁, h₂⟩; exact ⟨(), h₁, h₂⟩

theorem checkRows_ne_panic (ts : List Ty) (hts : ∀ t ∈ ts, t.PlanType) :
    ∀ rows : List (List Expr), (∀ row ∈ rows, (∀ e ∈ row, ∃ t, e.getType = .ok t) ∧
      row.length ≤ ts.length) → checkRows ts rows ≠ .panic
  | [], _ => by simp [checkRows]
  | row :: rows, h => by
      have h₁ := checkRowTypes_ne_panic ts hts row 0 (h row (by simp)).1 (by
        have := (h row (by simp)).2; omega)
      have h₂ := checkRows_ne_panic ts hts rows (fun r hr => h r (List.mem_cons_of_mem _ hr))
      exact Res.bind_ne_panic h₁ (fun _ _ => h₂)

/-- The types of typed values. -/
theorem typed_types {first : List Expr} (h : ∀ e ∈ first, ∃ t, e.getType = .ok t ∧ t.PlanType) :
    ∃ types, Res.mapL Expr.getType first = .ok types ∧ (∀ t ∈ types, t.PlanType) ∧
      types.length = first.length ∧ List.Forall₂ Expr.OfType first types := by
  induction first with
  | nil => exact ⟨[], rfl, by simp, rfl, .nil⟩
  | cons e es ih =>
    obtain ⟨t, ht, hp⟩ := h e (by simp)
    obtain ⟨ts, hts, hps, hl, hf⟩ := ih (fun x hx => h x (List.mem_cons_of_mem _ hx))
    exact ⟨t :: ts, by simp [Res.mapL_cons, ht, hts], by simpa using ⟨hp, hps⟩, by simp [hl],
      .cons ⟨t, ht, rfl⟩ hf⟩

/-- **C49, exactly which rows are accepted.** The first row must have one value per name; every
further row must have values of the types of the first columns, but may have fewer of them. -/
theorem C49_accepts (names : List String) (rows : List (List Expr)) (hv : ValuesTyped rows) (r : Rel) :
    virtualTableRemap names none rows = .ok r ↔ IsTableOf names none rows r ∧
      ∃ first types, rows.head? = some first ∧ first.length = names.length ∧
        Res.mapL Expr.getType first = .ok types ∧
        ∀ row ∈ rows, ∃ pre rest, types = pre ++ rest ∧ List.Forall₂ Expr.OfType row pre := by
  cases rows with
  | nil =>
    simp only [virtualTableRemap, reduceCtorEq, List.head?_nil, false_and, exists_false, and_false]
  | cons first rest =>
    obtain ⟨types, hm, hp, hl, hf⟩ := typed_types (hv first (by simp))
    simp only [virtualTableRemap, IsTableOf, List.head?_cons, Option.some.injEq, exists_eq_left',
      List.forall_mem_cons]
    split
    · rename_i hn
      simp only [reduceCtorEq, false_iff]
      rintro ⟨-, _, ts, rfl, h, -⟩
      exact hn h
    · rename_i hn
      have hn : first.length = names.length := by simpa using hn
      simp only [checkRemap, hm, Res.ok_bind, Res.bind_eq_ok]
      constructor
      · rintro ⟨_, -, _, h₁, h₂⟩
        cases h₂
        refine ⟨⟨types, rfl, rfl⟩, first, types, rfl, hn, hm, ⟨types, [], by simp, hf⟩, ?_⟩
        exact (checkRows_iff types hp rest).1 h₁
      · rintro ⟨⟨ts, h, rfl⟩, f', ts', rfl, -, h', -, hr⟩
        rw [hm] at h'
        cases h; cases h'
        exact ⟨(), rfl, (), (checkRows_iff _ hp rest).2 hr, rfl⟩

/-- **C49, part.** For rows of typed values as long as the list of names: the call succeeds exactly
when the rows match, the table then has the names, the types of the first row and the rows as given,
and the call never panics. Missing: rows of other lengths after the first, and values without a type
(see the negations). -/
theorem C49_rows_partial (names : List String) (rows : List (List Expr)) (hv : ValuesTyped rows)
    (hl : ∀ row ∈ rows.tail, row.length = names.length) :
    (∀ r, virtualTableRemap names none rows = .ok r → IsTableOf names none rows r) ∧
    ((∃ r, virtualTableRemap names none rows = .ok r) ↔ RowsMatch names rows) ∧
    virtualTableRemap names none rows ≠ .panic := by
  refine ⟨fun r h => ((C49_accepts names rows hv r).1 h).1, ⟨?_, ?_⟩, ?_⟩
  · rintro ⟨r, h⟩
    obtain ⟨-, first, types, hh, hn, hm, hr⟩ := (C49_accepts names rows hv r).1 h
    refine ⟨first, hh, hn, types, hm, fun row hrow => ?_⟩
    obtain ⟨pre, rest, he, hf⟩ := hr row hrow
    have hlen : row.length = names.length := by
      cases rows with
      | nil => cases hrow
      | cons x xs =>
        cases hh
        rcases List.mem_cons.1 hrow with rfl | hx
        · exact hn
        · exact hl row hx
    have htl := mapL_length hm
    have hpl := hf.length_eq
    have : rest = [] := by
      have := congrArg List.length he
      rw [List.length_append] at this
      exact List.length_eq_zero_iff.1 (by omega)
    subst this
    rw [List.append_nil] at he
    exact he ▸ hf
  · rintro ⟨first, hh, hn, types, hm, hr⟩
    refine ⟨_, (C49_accepts names rows hv _).2 ⟨⟨types, ⟨first, hh, hm⟩, rfl⟩, first, types, hh, hn, hm, ?_⟩⟩
    exact fun row hrow => ⟨types, [], by simp, hr row hrow⟩
  · cases rows with
    | nil => simp [virtualTableRemap]
    | cons first rest =>
      obtain ⟨types, hm, hp, hlen, -⟩ := typed_types (hv first (by simp))
      simp only [virtualTableRemap]
      split
      · simp
      · rename_i hn
        have hn : first.length = names.length := by simpa using hn
        simp only [checkRemap, hm, Res.ok_bind]
        refine Res.bind_ne_panic (by simp [checkMapping]) fun _ _ => ?_
        refine Res.bind_ne_panic ?_ (fun _ _ => by simp)
        refine checkRows_ne_panic types hp rest fun row hrow => ⟨fun e he => ?_, ?_⟩
        · obtain ⟨t, ht, -⟩ := hv row (List.mem_cons_of_mem _ hrow) e he
          exact ⟨t, ht⟩
        · have := hl row hrow; omega

/-- C49 in full. -/
def C49_statement : Prop :=
  ∀ (names : List String) (rows : List (List Expr)),
    ((∃ r, virtualTableRemap names none rows = .ok r) ↔ RowsMatch names rows) ∧
    virtualTableRemap names none rows ≠ .panic

/-- **C49, negation: short rows.** A row after the first may lack values: with typed rows that match,
followed by an empty row, the call succeeds. -/
theorem C49_negation_short (names : List String) (rows : List (List Expr)) (hv : ValuesTyped rows)
    (hm : RowsMatch names rows) (hn : names ≠ []) :
    (∃ r, virtualTableRemap names none (rows ++ [[]]) = .ok r) ∧ ¬ RowsMatch names (rows ++ [[]]) := by
  obtain ⟨first, hh, hl, types, ht, hr⟩ := hm
  have hh' : (rows ++ [[]]).head? = some first := by cases rows <;> simp_all
  constructor
  · refine ⟨_, (C49_accepts names _ ?_ _).2 ⟨⟨types, ⟨first, hh', ht⟩, rfl⟩, first, types, hh', hl, ht, ?_⟩⟩
    · intro row hrow
      rcases List.mem_append.1 hrow with h | h
      · exact hv row h
      · simp only [List.mem_singleton] at h; subst h; simp
    · intro row hrow
      rcases List.mem_append.1 hrow with h | h
      · exact ⟨types, [], by simp, hr row h⟩
      · simp only [List.mem_singleton] at h; subst h; exact ⟨[], types, rfl, .nil⟩
  · rintro ⟨first', hh'', hl', types', ht', hr'⟩
    have := (hr' [] (by simp)).length_eq
    have h₂ := mapL_length ht'
    simp only [List.length_nil] at this
    exact hn (List.length_eq_zero_iff.1 (by omega))

/-- **C49, negation: long rows.** A row after the first that has the right values and one more makes
the call panic. -/
theorem C49_negation_long (names : List String) (first : List Expr) (e : Expr)
    (hv : ValuesTyped [first]) (hl : first.length = names.length) :
    virtualTableRemap names none [first, first ++ [e]] = .panic := by
  obtain ⟨types, hm, hp, hlen, hf⟩ := typed_types (hv first (by simp))
  have key : ∀ (vs : List Expr) (j : Nat), List.Forall₂ Expr.OfType vs (types.drop j) →
      checkRowTypes types j (vs ++ [e]) = .panic := by
    intro vs
    induction vs with
    | nil =>
      intro j h
      have hj : types.length ≤ j := by
        have := h.length_eq
        simp only [List.length_nil, List.length_drop] at this
        omega
      simp [checkRowTypes, Res.index_oob types (j : Int) (by omega)]
    | cons v vs ih =>
      intro j h
      by_cases hj : j < types.length
      · rw [List.drop_eq_getElem_cons hj] at h
        cases h with
        | cons hv hvs =>
          obtain ⟨u, hu, hs⟩ := hv
          have hb := (equals_true_iff (b := u) (hp _ (List.getElem_mem hj))).2 hs
          have := ih (j + 1) hvs
          simp [checkRowTypes, Res.index_nat _ _ hj, hu, hb, this]
      · rw [List.drop_eq_nil_of_le (by omega)] at h
        cases h
  have h0 := key first 0 (by simpa using hf)
  simp [virtualTableRemap, hl, checkRemap, checkMapping, hm, checkRows, h0]

/-- **C49, negation: values without a type.** A row starting with a nil expression makes the call
panic. -/
theorem C49_negation_nil (names : List String) (row : List Expr)
    (hl : row.length + 1 = names.length) (rows : List (List Expr)) :
    virtualTableRemap names none ((.nil :: row) :: rows) = .panic := by
  simp [virtualTableRemap, hl, checkRemap, checkMapping, Res.mapL_cons, Expr.getType]

/-- **C49, negation.** -/
theorem C49_negation : ¬ C49_statement := by
  intro h
  refine (h ["x"] [[.lit exLit7], [.lit exLit7] ++ [.lit exLit7]]).2 ?_
  exact C49_negation_long _ _ _ (by
    intro row hr e he
    simp only [List.mem_singleton] at hr
    subst hr
    simp only [List.mem_singleton] at he
    subst he
    exact ⟨.prim .i32 2 0, rfl, by simp [Ty.PlanType]⟩) rfl

/-- two rows of one column, the second with a parameter of the same type: typed, and accepted -/
example : ∃ r, virtualTableRemap ["x"] none [[.lit exLit7], [.dynParam (.prim .i32 2 0) 1]] = .ok r := by
  have hv : ValuesTyped [[.lit exLit7], [.dynParam (.prim .i32 2 0) 1]] := by
    intro row hr e he
    simp only [List.mem_cons, List.not_mem_nil, or_false] at hr
    rcases hr with rfl | rfl <;> simp only [List.mem_singleton] at he <;> subst he
    · exact ⟨.prim .i32 2 0, rfl, by simp [Ty.PlanType]⟩
    · exact ⟨.prim .i32 2 0, rfl, by simp [Ty.PlanType]⟩
  refine (C49_rows_partial _ _ hv (by simp)).2.1.2 ⟨_, rfl, rfl, [.prim .i32 2 0], rfl, ?_⟩
  intro row hr
  simp only [List.mem_cons, List.not_mem_nil, or_false] at hr
  rcases hr with rfl | rfl
  · exact .cons ⟨_, rfl, rfl⟩ .nil
  · exact .cons ⟨_, rfl, rfl⟩ .nil

end Verif

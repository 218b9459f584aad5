import Verif.Lemmas.Scalar
import Verif.Props.ExprProto
/-!
# C93: `IsScalar`
-/

namespace Verif

/-- C93, as stated: `IsScalar` answers whether there is no call of a window function and no lambda in the
expression. -/
def C93_statement : Prop :=
  ∀ (e : Expr) (b : Bool), e.isScalar = .ok b → (b = true ↔ ¬ e.HasNonScalar)

/-- **C93**: if the answer is no, there is such a call or a lambda. -/
theorem C93_no (e : Expr) (h : e.isScalar = .ok false) : e.HasNonScalar := by
  obtain ⟨c, hc, hx⟩ := (isScalar_answer e).1 h
  rw [List.mem_singleton.1 hc] at hx
  exact hx

/-- **C93 (partial)**: the answer is right for expressions that take no field from the value of an expression.
Missing: such field references, where the expression is not looked at (`C93_negation`). -/
theorem C93_partial (e : Expr) (b : Bool) (hr : e.NoExprRoots) (h : e.isScalar = .ok b) :
    b = true ↔ ¬ e.HasNonScalar := by
  cases b with
  | false => simp [C93_no e h]
  | true =>
    simp only [true_iff]
    exact (isScalar_answer e).2.1 h (fun c hc => by rw [List.mem_singleton.1 hc]; exact hr) e
      (List.mem_singleton_self _)

/-- **C93**: an expression without nil parts gets an answer. -/
theorem C93_answered (e : Expr) (h : e.Whole) : ∃ b, e.isScalar = .ok b := by
  obtain ⟨-, -, h3, h4⟩ := isScalar_answer e
  have h3 := h3 (fun c hc => by rw [List.mem_singleton.1 hc]; exact fun x hx => (h x hx).1)
  cases hs : e.isScalar with
  | ok b => exact ⟨b, rfl⟩
  | err => exact absurd hs h4
  | panic => exact absurd hs h3

/-- **C93 (partial)**: in particular whatever is read from a message, if no literal in it is unreadable; those are read
as nil (`C73_negation`). -/
theorem C93_read_partial (reg : Reg) (base : Option (List Ty)) (m : ExprMsg) (e : Expr)
    (hl : ∀ l ∈ m.literals, ¬ l.Unreadable) (h : Expr.fromProto reg base m = .ok e) : ∃ b, e.isScalar = .ok b :=
  C93_answered e (C73_no_nil_partial reg base m e hl h)

/-- **C93, negation**: a timestamp before 1970 is read without an error, but what is returned has no answer. -/
theorem C93_negation_read (reg : Reg) (base : Option (List Ty)) (p : Int32) (v : Int64) (hv : v < 0) :
    ∃ e, Expr.fromProto reg base (.lit (.mk false 0 (.precisionTimestamp p v))) = .ok e ∧ e.isScalar = .panic :=
  ⟨.nil, (C73_negation reg base false 0 p v hv 0).1, by rw [Expr.isScalar]⟩

/-- a call of a window function on the number 7 -/
def exRank : Expr := .window ⟨2, "rank", [], .struct 2 0 [.prim .i64 2 0]⟩ ⟨1, 0, 0, none, none⟩ [.expr (.lit exLit7)] [] []

/-- the first field of its value -/
def exRankField : Expr := .fieldRef (.expr exRank) (.seg (.structField 0 .nil)) (some (.prim .i64 2 0))

theorem exRank_within : exRankField.HasNonScalar :=
  ⟨exRank, .part exRank exRankField (by simp [exRankField, Expr.parts]) .refl, .window ..⟩

/-- **C93 negation**: a field of the value of a window function is called scalar. -/
theorem C93_negation : ¬ C93_statement := by
  intro h
  exact (h exRankField true (by simp [exRankField, Expr.isScalar])).1 rfl exRank_within

-- `C93_no`: a window call deep inside a cast in a switch in a call
def exDeep (e : Expr) : Expr :=
  .scalar ⟨1, "f:i32", [], .prim .i32 2 0⟩
    [.enum "X", .expr (.switch (.lit exLit7) [.mk exLit7 (.cast (.prim .i32 2 0) e 1)] .nil)]

example : (exDeep exRank).HasNonScalar :=
  C93_no _ (by simp [exDeep, exRank, Expr.isScalar, EArg.scalarLoop, ECase.scalarLoop])

-- `C93_partial`: the same with a literal
example : ¬ (exDeep (.lit exLit7)).HasNonScalar := by
  refine (C93_partial _ true ?_ (by simp [exDeep, Expr.isScalar, EArg.scalarLoop, ECase.scalarLoop, Expr.isNil])).1 rfl
  intro x hx r ref k he
  subst he
  cases hx with
  | part c _ hc hx =>
    simp only [exDeep, Expr.parts, List.flatMap_cons, EArg.exprs, List.flatMap_nil, List.nil_append, List.append_nil,
      List.mem_singleton] at hc
    subst hc
    cases hx with
    | part c _ hc hx =>
      simp only [Expr.parts, List.flatMap_cons, ECase.exprs, List.flatMap_nil, List.cons_append, List.nil_append,
        List.append_nil, List.mem_cons, List.not_mem_nil, or_false] at hc
      rcases hc with rfl | rfl | rfl | rfl
      · cases hx with | part c _ hc _ => simp [Expr.parts] at hc
      · cases hx with | part c _ hc _ => simp [Expr.parts] at hc
      · cases hx with
        | part c _ hc hx =>
          simp only [Expr.parts, List.mem_singleton] at hc
          subst hc
          cases hx with | part c _ hc _ => simp [Expr.parts] at hc
      · cases hx with | part c _ hc _ => simp [Expr.parts] at hc

-- `C93_answered`: needs the hypothesis, a call on nil panics
example : Expr.isScalar (.cast (.prim .i32 2 0) .nil 1) = .panic := by simp [Expr.isScalar]
example : ∃ b, Expr.isScalar (.lit exLit7) = .ok b :=
  C93_answered _ (whole_of_parts (by simp [exLit7]) (by simp [Expr.parts]))

-- `C93_read_partial`: the message of a cast of a literal
example : ∃ b, Expr.isScalar (.cast (.prim .string 2 0) (.lit exLit7) 1) = .ok b :=
  C93_read_partial exReg exBase (.cast (some (.prim .string 2 0)) (.lit (.mk false 0 (.i32 7))) 1) _
    (by simp [ExprMsg.literals, PLit.Unreadable]) rfl

end Verif

import Verif.Props.FuncCall
import Verif.Lemmas.RelProto
/-!
# C84, continued: calls of window and aggregate functions are written and read back
-/

namespace Verif

/-- **C84 (partial)**: a window call that was built is written to a message and read back, by a registry
of the same collection and the set afterwards, as the same call, also with the frame, sort fields and
partitions it was given afterwards, if all these can be carried by a message. -/
theorem C84_window_roundtrip_partial (rest : Reg) (base : Option (List Ty)) (c : Collection) (s s' : ExtSet)
    (id : ExtId) (opts : List (String × List String)) (invocation phase : Int32) (args : List EArg)
    (a : FnAttrs) (w w' : WinAttrs) (args' : List EArg) (sorts sorts' : List ESort) (parts parts' : List Expr)
    (m : ExprMsg) (hc : c.Reachable) (hs : s.Tidy) (ha : ∀ a ∈ args, a.IsValue)
    (h : newWindowFunc c s id opts invocation phase args = .ok (.window a w args' sorts' parts', s'))
    (hargs : EArg.SendableList (Reg.ofSet rest c s') base args)
    (hsorts : ESort.SendableList (Reg.ofSet rest c s') base sorts)
    (hparts : Expr.SendableList (Reg.ofSet rest c s') base parts)
    (hty : a.outputType.Sendable)
    (hm : (Expr.window a w' args' sorts parts).toProto (Reg.ofSet rest c s') = .ok m) :
    Expr.fromProto (Reg.ofSet rest c s') base m = .ok (.window a w' args sorts parts) := by
  obtain ⟨a, w, v, e, -, -, -, hcall⟩ := C84_window_partial c s s' id opts invocation phase args _ hc hs ha h
  cases e
  refine C72_roundtrip_partial _ _ _ _ ?_ hm
  rw [Expr.Sendable]
  exact ⟨declared_of_calls hcall, hty, hargs, hsorts, hparts⟩

/-- **C84 (partial)**: the same for aggregate functions, as measures with a filter or without. -/
theorem C84_aggregate_roundtrip_partial (rest : Reg) (base : Option (List Ty)) (c : Collection)
    (s s' : ExtSet) (id : ExtId) (opts : List (String × List String)) (invocation phase : Int32)
    (sorts : List ESort) (args : List EArg) (f : AggFn) (filter : Expr) (m : MeasureMsg) (hc : c.Reachable)
    (hs : s.Tidy) (ha : ∀ a ∈ args, a.IsValue)
    (h : newAggregateFunc c s id opts invocation phase sorts args = .ok (f, s'))
    (hargs : EArg.SendableList (Reg.ofSet rest c s') base args)
    (hsorts : ESort.SendableList (Reg.ofSet rest c s') base sorts)
    (hfilter : filter.NilOrSendable (Reg.ofSet rest c s') base) (hty : f.a.outputType.Sendable)
    (hm : (Measure.mk (some f) filter).toMsg (Reg.ofSet rest c s') = .ok m) :
    measureFromProto (Reg.ofSet rest c s') base m = .ok ⟨some f, filter⟩ := by
  obtain ⟨h1, -, -, h2, -, v, hcall⟩ :=
    C84_aggregate_partial c s s' id opts invocation phase sorts args f hc hs ha h
  refine measure_exact ⟨⟨f, rfl, ?_, hty, h1 ▸ hargs, h2 ▸ hsorts⟩, hfilter⟩ hm
  refine ⟨⟨v.urn, f.a.declaration⟩, hcall.reference, .inl ?_⟩
  simp only [Reg.ofSet, ExtSet.declarationOf, ExtSet.lookupFunc, hcall.reference, hcall.registered, hcall.compound]

/-- an extension with an aggregate function `f` of one `i32` -/
def aggregateFile : ExtFile := fileOf [] [declOf "f" [.i32]] []

/-- the collection with that extension -/
def aggregateCollection : Collection := (Collection.zero.load (some aggregateFile)).1

theorem exprOf_isValue (t : Prim) : (exprOf t).IsValue := .expr

theorem exprOf_sendable (reg : Reg) (t : Prim) : EArg.SendableList reg none [exprOf t] := by
  simp only [exprOf, EArg.SendableList, EArg.Sendable, Expr.Sendable, and_true]
  exact ⟨trivial, trivial⟩

/-- non-vacuity: `f` is called as a window function, given a partition, written and read back -/
example (rest : Reg) : ∃ a w args s' m, newWindowFunc aggregateCollection .new ⟨"extension:acme:f", "f"⟩ [] 1 3 [exprOf .i32] =
      .ok (.window a w args [] [], s') ∧
    (Expr.window a w args [] [.dynParam (.prim .i32 1 0) 1]).toProto (Reg.ofSet rest aggregateCollection s') = .ok m ∧
    Expr.fromProto (Reg.ofSet rest aggregateCollection s') none m =
      .ok (.window a w [exprOf .i32] [] [.dynParam (.prim .i32 1 0) 1]) := by
  obtain ⟨a, w, s', he, hty, m, hm⟩ : ∃ a w s', newWindowFunc aggregateCollection .new ⟨"extension:acme:f", "f"⟩ [] 1 3
      [exprOf .i32] = .ok (.window a w [exprOf .i32] [] [], s') ∧ a.outputType.Sendable ∧
      ∃ m, (Expr.window a w [exprOf .i32] [] [.dynParam (.prim .i32 1 0) 1]).toProto
        (Reg.ofSet rest aggregateCollection s') = .ok m :=
    ⟨_, _, _, rfl, ⟨trivial, trivial⟩, _, by simp [Expr.toProto, EArg.toProtoList, EArg.toProto, exprOf, typeToProto, primToProto, Expr.toProtoList, ESort.toProtoList]; rfl⟩
  refine ⟨a, w, _, s', m, he, hm, C84_window_roundtrip_partial rest none _ _ _ _ _ _ _ _ a w w _ [] [] _ [] m (.load _ _ .zero) new_tidy ?_ he ?_ ?_ ?_ hty hm⟩
  · intro x hx
    simp only [List.mem_singleton] at hx
    subst hx
    exact exprOf_isValue _
  · exact exprOf_sendable _ _
  · trivial
  · simp only [Expr.SendableList, Expr.Sendable, and_true]
    exact ⟨trivial, trivial⟩

/-- non-vacuity: `f` is called as an aggregate function, written and read back -/
example (rest : Reg) : ∃ f s' m, newAggregateFunc aggregateCollection .new ⟨"extension:acme:f", "f"⟩ [] 1 3 [] [exprOf .i32] =
      .ok (f, s') ∧ (Measure.mk (some f) .nil).toMsg (Reg.ofSet rest aggregateCollection s') = .ok m ∧
    measureFromProto (Reg.ofSet rest aggregateCollection s') none m = .ok ⟨some f, .nil⟩ := by
  obtain ⟨f, s', he, hty, m, hm⟩ : ∃ f s', newAggregateFunc aggregateCollection .new ⟨"extension:acme:f", "f"⟩ [] 1 3 []
      [exprOf .i32] = .ok (f, s') ∧ f.a.outputType.Sendable ∧
      ∃ m, (Measure.mk (some f) .nil).toMsg (Reg.ofSet rest aggregateCollection s') = .ok m :=
    ⟨_, _, rfl, ⟨trivial, trivial⟩, _, by
      simp [Measure.toMsg, AggFn.toMsg, EArg.toProtoList, EArg.toProto, exprOf, typeToProto, primToProto, Expr.toProto, ESort.toProtoList, Ty.withNullability, Ty.nullability, Expr.optToProto, NullabilityRequired, NullabilityNullable]; rfl⟩
  refine ⟨f, s', m, he, hm, C84_aggregate_roundtrip_partial rest none _ _ _ _ _ _ _ _ _ f _ m (.load _ _ .zero) new_tidy ?_ he
    (exprOf_sendable _ _) trivial (.inl rfl) hty hm⟩
  intro x hx
  simp only [List.mem_singleton] at hx
  subst hx
  exact exprOf_isValue _

end Verif

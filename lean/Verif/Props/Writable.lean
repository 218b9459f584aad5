import Verif.Lemmas.Writable
import Verif.Props.PlanProto
import Verif.Props.ExprBuild
/-!
# C110: what can be written
-/

namespace Verif

/-- **C110, types.** A type can be written exactly if no enumeration argument, type of an
`IntervalYearToMonthLiteral`, pointer to an interval_compound type or nil parameter is in it. -/
theorem C110_types (t : Ty) : (∃ m, typeToProto t = .ok m) ↔ t.Writable := type_writes t

/-- **C110, literals.** A literal can be written exactly if it is there with all its parts, their
values are of the kinds that have messages, and the types of nulls and empty lists and maps can be
written. -/
theorem C110_literals (l : Lit) : (∃ m, literalToProto l = .ok m) ↔ l.Writable := literal_writes l

/-- **C110, expressions.** An expression can be written exactly if it is there with everything in it
but else branches, and its types, literals and subqueries can be written. -/
theorem C110_expressions (reg : Reg) (e : Expr) :
    (∃ m, e.toProto reg = .ok m) ↔ e.Writable reg := expr_writes reg e

/-- **C110, relations.** A relation can be written exactly if the types and expressions of the whole
tree can, measures have functions, and join keys are references with a comparison. -/
theorem C110_relations (reg : Reg) (r : Rel) :
    (∃ m, r.toProto reg = .ok m) ↔ r.Writable reg := rel_writes reg r

/-- **C110, plans.** A plan can be written exactly if each entry has a root or a relation that can be
written and the values of its parameters can. -/
theorem C110_plans (reg : Reg) (p : Plan) :
    (∃ m, p.toProto (Rel.toProto reg) = .ok m) ↔ p.Writable reg := plan_writes reg p

/-- **C110, round trip of expressions.** What can be written and carried is read back (C72). -/
theorem C110_expression_roundtrip (reg : Reg) (base : Option (List Ty)) (e : Expr)
    (hw : e.Writable reg) (hs : e.Sendable reg base) :
    ∃ m, e.toProto reg = .ok m ∧ Expr.fromProto reg base m = .ok e := by
  obtain ⟨m, hm⟩ := (C110_expressions reg e).2 hw
  exact ⟨m, hm, C72_roundtrip_partial reg base e m hs hm⟩

/-- **C110, round trip of plans.** What can be written and carried is read back (C76). -/
theorem C110_plan_roundtrip (reg : RelReg) (p : Plan) (hw : p.Writable reg.toReg)
    (hs : p.Sendable reg) :
    ∃ m, p.toProto (Rel.toProto reg.toReg) = .ok m ∧ Plan.fromProto (Rel.fromProto reg) m = .ok p := by
  obtain ⟨m, hm⟩ := (C110_plans reg.toReg p).2 hw
  exact ⟨m, hm, C76_roundtrip_partial reg p m hs hm⟩

/-- The plan of C76 (joins, aggregates, sets, sorts, a write, a parameter) can be written. -/
theorem exPlan_writable : exPlan.Writable exRelReg.toReg := by
  simp [exPlan, Plan.Writable, Relation.Writable, exTree, exTree.exHash', exHash, exSum, exScan, exCol,
    exLit7, Rel.Writable, Rel.WritableList, Expr.Writable, Expr.WritableOpt, Expr.WritableList,
    EArg.WritableList, EArg.Writable, ESort.WritableList, ERoot.Writable, ERef.Writable,
    Seg.KeysWritable, Lit.Writable, Ty.Writable, Ty.WritableList, Measure.Writable, ReadKind.Writable,
    JoinKey.Writable, Expr.RefWritable]

example : ∃ m, exPlan.toProto (Rel.toProto exRelReg.toReg) = .ok m ∧
    Plan.fromProto (Rel.fromProto exRelReg) m = .ok exPlan :=
  C110_plan_roundtrip _ _ exPlan_writable exPlan_sendable

example : exBig.Writable exReg := by
  simp [exBig, exReg, exLit7, Expr.Writable, Expr.WritableOpt, Expr.WritableList, EArg.WritableList,
    EArg.Writable, ESort.WritableList, ECase.WritableList, EPair.WritableList, ERow.WritableList,
    ERoot.Writable, ERef.Writable, Seg.KeysWritable, Lit.Writable, Ty.Writable, Ty.WritableList,
    Ty.WritableArg, RelRef.Writable]

/-- A nested literal with a user-defined value, an empty map and a null. -/
example : Lit.Writable (.struct
    [.proto (.udt (.value "url" [1])) (.udt 2 0 3 [.dataType (.prim .i8 1 0), .null]),
     .map [] (.map 1 0 (.prim .string 2 0) (.list 1 0 (.intervalCompound false 1 0 6))),
     .null (.func 1 [.prim .i32 1 0] (.prim .boolean 1 0)), .list [.null (.decimal 1 0 2 10)] (.enum false 1 0 "E" ["A"])]
    (.enum false 1 0 "E" ["A"])) := by
  simp [Lit.Writable, Lit.WritableList, KeyValue.WritableList, ProtoVal.KindOf, Ty.Writable,
    Ty.WritableList, TParam.WritableList, TParam.Writable]

/-- What cannot be written: a cast to the type of an `IntervalYearToMonthLiteral`, a null of the type
of an enumeration argument, a call with a nil argument, a comparison with an unbuilt subquery. -/
example (reg : Reg) : (¬ Expr.Writable reg (.cast (.intervalYearToMonth 1 0) (.lit exLit7) 0)) ∧
    (¬ Expr.Writable reg (.lit (.null (.enum false 1 0 "E" ["A"])))) ∧
    (¬ Expr.Writable reg (.scalar ⟨1, "f", [], .prim .i32 1 0⟩ [.nil])) ∧
    (¬ Expr.Writable reg (.setComparison 1 1 (.lit exLit7) none)) := by
  simp [Expr.Writable, Ty.Writable, Lit.Writable, EArg.WritableList, EArg.Writable]

end Verif

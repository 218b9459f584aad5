import Verif.Lemmas.Interchange
import Verif.Props.RowsSame
import Verif.Props.Expr
/-!
# C135: expressions that are equal can stand for each other
-/

namespace Verif

/-- The property in full: expressions that `Equals` finds equal are written as the same message.
False: see the negations. -/
def C135_statement : Prop :=
  ∀ (sh : Sharing) (reg : Reg) (a b : Expr), sh.Sound → Expr.equals sh a b = .ok true →
    a.toProto reg = b.toProto reg

private theorem equal_canon {sh : Sharing} (hs : sh.Sound) {ar : UInt32 → Nat} {a b : Expr}
    (ha : a.Regular ar) (hb : b.Regular ar) (he : Expr.equals sh a b = .ok true) :
    a.canon = b.canon := by
  obtain ⟨r, e, h⟩ := expr_equals_spec hs a b ha (.inr hb)
  rw [he] at e
  injection e with e
  exact h.1 e.symm

/-- **C135 (messages).** Equal expressions are written as the same message (missing: negative zeros,
interval_compound types, window functions with different bounds types, and what C18 excludes). -/
theorem C135_message_partial (sh : Sharing) (hs : sh.Sound) (reg : Reg) (g : Settings)
    (ar : UInt32 → Nat) (a b : Expr) (ha : a.Regular ar) (hb : b.Regular ar) (sa : a.Settled g)
    (sb : b.Settled g) (he : Expr.equals sh a b = .ok true) : a.toProto reg = b.toProto reg :=
  wire_expr reg g a b sa sb (equal_canon hs ha hb he)

/-- **C135 (values).** Equal expressions have the same values in every world. -/
theorem C135_values_partial (sh : Sharing) (hs : sh.Sound) (g : Settings) (ar : UInt32 → Nat)
    (a b : Expr) (ha : a.Regular ar) (hb : b.Regular ar) (sa : a.Settled g) (sb : b.Settled g)
    (he : Expr.equals sh a b = .ok true) (w : World) (v : Val) : a.Yields w v ↔ b.Yields w v :=
  values_expr w g a b sa sb (equal_canon hs ha hb he) v

/-- **C135 (types).** Equal expressions state the same type, if the types recorded in field references
are those of one schema. -/
theorem C135_type_partial (sh : Sharing) (hs : sh.Sound) (s : Shape) (g : Settings)
    (ar : UInt32 → Nat) (a b : Expr) (ha : a.Regular ar) (hb : b.Regular ar) (sa : a.Settled g)
    (sb : b.Settled g) (ka : a.TypesKnown s) (kb : b.TypesKnown s)
    (he : Expr.equals sh a b = .ok true) : a.getType = b.getType :=
  type_expr s g a b sa sb ka kb (equal_canon hs ha hb he)

/-- Two expressions of one schema that `Equals` finds equal. -/
structure FoundEqual (sh : Sharing) (s : Shape) (g : Settings) (ar : UInt32 → Nat) (a b : Expr) :
    Prop where
  left : a.Regular ar ∧ a.Settled g ∧ a.TypesKnown s
  right : b.Regular ar ∧ b.Settled g ∧ b.TypesKnown s
  equal : Expr.equals sh a b = .ok true

/-- **C135 (meaning).** They have the same type and the same values. -/
theorem C135_meaning_partial (sh : Sharing) (hs : sh.Sound) (s : Shape) (g : Settings)
    (ar : UInt32 → Nat) (a b : Expr) (h : FoundEqual sh s g ar a b) : a.SameMeaning b := by
  obtain ⟨⟨a1, a2, a3⟩, ⟨b1, b2, b3⟩, e⟩ := h
  refine ⟨by rw [isNil_of_canon (equal_canon hs a1 b1 e)],
    (C135_type_partial sh hs s g ar a b a1 b1 a2 b2 a3 b3 e).symm, fun w v =>
      (C135_values_partial sh hs g ar a b a1 b1 a2 b2 e w v).symm⟩

/-- **C135 (rows).** Replacing expressions in a tree of relations by equal ones (or leaving them)
changes neither its columns nor its rows. -/
theorem C135_rows_partial (sh : Sharing) (hs : sh.Sound) (f : RewriteFn) (r out : Rel)
    (hf : ∀ e e' b, f e = .ok (e', b) → e' = e ∨ ∃ s g ar, FoundEqual sh s g ar e e')
    (h : RewrittenTree sh f r out) :
    out.recordType = r.recordType ∧ ∀ g vs, out.Yields g vs ↔ r.Yields g vs := by
  refine C123_rows sh f r out (fun e e' b hfe => ?_) h
  rcases hf e e' b hfe with rfl | ⟨s, g, ar, he⟩
  · exact ⟨.rfl, rfl, fun _ _ => .rfl⟩
  · exact C135_meaning_partial sh hs s g ar e e' he

/-! ### Where it fails -/

/-- A registry for writing. -/
def plainReg : Reg := ⟨fun _ => none, fun _ => none, fun _ => none, fun _ => none,
  fun _ => .err, fun _ => .err, fun _ => .err, id, id⟩

/-- Window functions with different bounds types are equal and written differently. -/
theorem C135_negation : ¬ C135_statement := by
  intro h
  have := h noSharing plainReg (.window exVarFn ⟨3, 1, 1, none, none⟩ [] [] [])
    (.window exVarFn ⟨3, 1, 2, none, none⟩ [] [] []) noSharing_sound C18_negation_boundsType
  simp [Expr.toProto, EArg.toProtoList, ESort.toProtoList, Expr.toProtoList, exVarFn, typeToProto,
    primToProto, WinAttrs.toMsg] at this

/-- Zero and negative zero are equal and written differently. -/
theorem C135_negation_zero :
    let z (b : UInt64) : Expr := .lit (.prim (.float64 b) (.prim .fp64 NullabilityRequired 0))
    Expr.equals noSharing (z 0) (z 0x8000000000000000) = .ok true ∧
      (z 0).toProto plainReg ≠ (z 0x8000000000000000).toProto plainReg := by
  have h1 : zero64 0 = true := by decide
  have h2 : zero64 0x8000000000000000 = true := by decide
  have h3 : nan64 0 = false := by decide
  have h4 : nan64 0x8000000000000000 = false := by decide
  refine ⟨by simp [Expr.equals, Lit.equals, Ty.equals, PVal.goEq, h1, h2, h3, h4], ?_⟩
  simp [Expr.toProto, literalToProto, primLitKind, litHeader]

/-- A call is equal to the call with a further argument, which is written differently. -/
theorem C135_negation_arguments :
    Expr.equals noSharing (.scalar exVarFn [.expr exSeven])
      (.scalar exVarFn [.expr exSeven, .expr exSeven]) = .ok true ∧
    (Expr.scalar exVarFn [.expr exSeven]).toProto plainReg ≠
      (Expr.scalar exVarFn [.expr exSeven, .expr exSeven]).toProto plainReg := by
  refine ⟨C18_negation_arguments.1, ?_⟩
  simp [Expr.toProto, EArg.toProtoList, EArg.toProto, exVarFn, exSeven, typeToProto, primToProto,
    literalToProto, primLitKind, litHeader]

/-- References to one column that record different types are equal; they are written as the same
message but state different types. -/
theorem C135_negation_type :
    let c (t : Ty) : Expr := .fieldRef .rootReference (.seg (.structField 0 .nil)) (some t)
    let i : Ty := .prim .i32 NullabilityRequired 0
    let j : Ty := .prim .i64 NullabilityRequired 0
    Expr.equals noSharing (c i) (c j) = .ok true ∧ (c i).toProto plainReg = (c j).toProto plainReg ∧
      (c i).getType ≠ (c j).getType := by
  refine ⟨by simp [Expr.equals, ERoot.equals, ERef.equals, Seg.equals, Seg.isNil],
    by simp [Expr.toProto], ?_⟩
  simp [Expr.getType]

/-- Two expressions that differ in declarations only, with a window function over a call, a switch
without default and a column: they are found equal and meet every hypothesis. -/
example :
    let i : Ty := .prim .i32 NullabilityRequired 0
    let col : Expr := .fieldRef .rootReference (.seg (.structField 0 .nil)) (some i)
    let e (d : String) : Expr := .switch col
      [.mk (.prim (.int32 7) i) (.window { exVarFn with declaration := d } ⟨3, 1, 1, none, none⟩
        [.expr (.scalar { exVarFn with declaration := d } [.expr col]), .enum "x"] [.mk col (.direction 2)]
        [col])] .nil
    FoundEqual noSharing ⟨.struct NullabilityRequired 0 [i], fun _ => i, fun _ => i⟩ ⟨1, fun _ => []⟩
      (fun _ => 1) (e "f") (e "g") := by
  refine ⟨⟨?_, ?_, ?_⟩, ⟨?_, ?_, ?_⟩, ?_⟩
  case refine_7 =>
    simp [Expr.equals, ERoot.equals, ERef.equals, Seg.equals, Seg.isNil, ECase.equalsLoop, Lit.equals,
      Ty.equals, PVal.goEq, exVarFn, Expr.equalsLoop, ESort.equalsLoop, EArg.equalsLoop, EArg.equals,
      noSharing, Expr.isNil]
  case refine_3 =>
    simp only [Expr.TypesKnown, ECase.TypesKnownList, and_self]
  case refine_6 =>
    simp only [Expr.TypesKnown, ECase.TypesKnownList, and_self]
  all_goals
    simp [Expr.Regular, ECase.RegularList, Lit.Regular, PVal.Comparable, Ty.PlanType, exVarFn,
      EArg.RegularList, EArg.Regular, ESort.RegularList, Expr.RegularList, ERoot.Regular, ERef.Regular,
      Seg.Regular, Seg.isNil, Expr.isNil, Expr.Settled, ECase.SettledList, Lit.Settled,
      PVal.NoMinusZero, Ty.NoCompound, EArg.SettledList, EArg.Settled, ESort.SettledList,
      Expr.SettledList, ERoot.Settled, ERef.Settled, Seg.Settled]

/-- A lambda whose body is its parameter: the recorded type is the one at the end of the path. -/
example :
    let i : Ty := .prim .i32 NullabilityRequired 0
    let s : Shape := ⟨.struct NullabilityRequired 0 [i], fun _ => i, fun _ => i⟩
    (Expr.lambda NullabilityRequired 0 [i]
      (.fieldRef (.lambdaParam 0) (.seg (.structField 0 .nil)) (some i))).TypesKnown s := by
  simp only [Expr.TypesKnown, ERoot.TypesKnown, true_and]
  refine ⟨_, _, _, rfl, rfl, rfl, ?_⟩
  exact .step _ _ _ _ _ (.field 0 0 _ _ _ _ rfl rfl) (.done _)

end Verif

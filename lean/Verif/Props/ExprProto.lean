import Verif.Lemmas.ExprProto
import Verif.Spec.Plan
import Mathlib.Data.List.Forall2
/-!
# Properties of expressions as messages (C72, C73)
-/

namespace Verif

theorem f2_append {α β} {R : α → β → Prop} {a c : List α} {b d : List β}
    (h1 : List.Forall₂ R a b) (h2 : List.Forall₂ R c d) : List.Forall₂ R (a ++ c) (b ++ d) :=
  List.rel_append h1 h2

theorem exprs_written (reg : Reg) : ∀ (es : List Expr) (ms : List ExprMsg),
    Expr.toProtoList reg es = .ok ms →
    es.length = ms.length ∧ List.Forall₂ (Part.Written reg) (es.map .expr) (ms.map .expr)
  | [], ms, h => by simp only [Expr.toProtoList] at h; cases h; exact ⟨rfl, .nil⟩
  | e :: es, ms, h => by
      simp only [Expr.toProtoList, Res.bind_eq_ok] at h
      obtain ⟨a, ha, b, hb, h⟩ := h
      cases h
      obtain ⟨h1, h2⟩ := exprs_written reg es b hb
      exact ⟨by simp [h1], .cons ha h2⟩

theorem pairs_written (reg : Reg) : ∀ (es : List EPair) (ms : List PairMsg),
    EPair.toProtoList reg es = .ok ms →
    es.length = ms.length ∧
      List.Forall₂ (Part.Written reg) (es.flatMap EPair.items) (ms.flatMap PairMsg.items)
  | [], ms, h => by simp only [EPair.toProtoList] at h; cases h; exact ⟨rfl, .nil⟩
  | .mk x y :: es, ms, h => by
      simp only [EPair.toProtoList, Res.bind_eq_ok] at h
      obtain ⟨a, ha, b, hb, c, hc, h⟩ := h
      cases h
      obtain ⟨h1, h2⟩ := pairs_written reg es c hc
      exact ⟨by simp [h1], .cons ha (.cons hb h2)⟩

theorem cases_written (reg : Reg) : ∀ (es : List ECase) (ms : List CaseMsg),
    ECase.toProtoList reg es = .ok ms →
    es.length = ms.length ∧
      List.Forall₂ (Part.Written reg) (es.flatMap ECase.items) (ms.flatMap CaseMsg.items)
  | [], ms, h => by simp only [ECase.toProtoList] at h; cases h; exact ⟨rfl, .nil⟩
  | .mk x y :: es, ms, h => by
      simp only [ECase.toProtoList, Res.bind_eq_ok] at h
      obtain ⟨a, ha, b, hb, c, hc, h⟩ := h
      cases h
      obtain ⟨h1, h2⟩ := cases_written reg es c hc
      exact ⟨by simp [h1], .cons ha (.cons hb h2)⟩

theorem rows_written (reg : Reg) : ∀ (es : List ERow) (ms : List RowMsg),
    ERow.toProtoList reg es = .ok ms →
    es.map ERow.width = ms.map RowMsg.width ∧
      List.Forall₂ (Part.Written reg) (es.flatMap ERow.items) (ms.flatMap RowMsg.items)
  | [], ms, h => by simp only [ERow.toProtoList] at h; cases h; exact ⟨rfl, .nil⟩
  | .mk x :: es, ms, h => by
      simp only [ERow.toProtoList, Res.bind_eq_ok] at h
      obtain ⟨a, ha, c, hc, h⟩ := h
      cases h
      obtain ⟨h1, h2⟩ := rows_written reg es c hc
      obtain ⟨h3, h4⟩ := exprs_written reg x a ha
      exact ⟨by simp [h1, h3, ERow.width, RowMsg.width], f2_append h4 h2⟩

theorem args_written (reg : Reg) : ∀ (es : List EArg) (ms : List ArgMsg),
    EArg.toProtoList reg es = .ok ms →
    es.map EArg.says = ms.map ArgMsg.says ∧
      List.Forall₂ (Part.Written reg) (es.flatMap EArg.items) (ms.flatMap ArgMsg.items)
  | [], ms, h => by simp only [EArg.toProtoList] at h; cases h; exact ⟨rfl, .nil⟩
  | x :: es, ms, h => by
      simp only [EArg.toProtoList, Res.bind_eq_ok] at h
      obtain ⟨a, ha, c, hc, h⟩ := h
      cases h
      obtain ⟨h1, h2⟩ := args_written reg es c hc
      cases x with
      | nil => simp [EArg.toProto] at ha
      | expr e =>
        simp only [EArg.toProto, Res.bind_eq_ok] at ha
        obtain ⟨b, hb, ha⟩ := ha
        cases ha
        exact ⟨by simp [h1, EArg.says, ArgMsg.says], .cons hb h2⟩
      | type e =>
        simp only [EArg.toProto, Res.bind_eq_ok] at ha
        obtain ⟨b, hb, ha⟩ := ha
        cases ha
        exact ⟨by simp [h1, EArg.says, ArgMsg.says], .cons hb h2⟩
      | enum s =>
        simp only [EArg.toProto] at ha
        cases ha
        exact ⟨by simp [h1, EArg.says, ArgMsg.says], h2⟩

theorem sorts_written (reg : Reg) : ∀ (es : List ESort) (ms : List SortMsg),
    ESort.toProtoList reg es = .ok ms →
    es.map ESort.says = ms.map SortMsg.says ∧
      List.Forall₂ (Part.Written reg) (es.flatMap ESort.items) (ms.flatMap SortMsg.items)
  | [], ms, h => by simp only [ESort.toProtoList] at h; cases h; exact ⟨rfl, .nil⟩
  | .mk x k :: es, ms, h => by
      simp only [ESort.toProtoList, Res.bind_eq_ok] at h
      obtain ⟨a, ha, c, hc, h⟩ := h
      cases h
      obtain ⟨h1, h2⟩ := sorts_written reg es c hc
      refine ⟨?_, .cons ha h2⟩
      cases k <;> simp [h1, ESort.says, SortMsg.says, SortKind.toMsg]

theorem types_written (reg : Reg) : ∀ (ts : List Ty) (ms : List PTy),
    Res.mapL typeToProto ts = .ok ms →
    List.Forall₂ (Part.Written reg) (ts.map .type) (ms.map .type)
  | [], ms, h => by simp only [Res.mapL_nil] at h; cases h; exact .nil
  | t :: ts, ms, h => by
      simp only [Res.mapL_cons, Res.bind_eq_ok] at h
      obtain ⟨a, ha, b, hb, h⟩ := h
      cases h
      exact .cons ha (types_written reg ts b hb)

theorem opt_written (reg : Reg) (e : Expr) (m : ExprMsg) (h : Expr.optToProto reg e = .ok m) :
    e.isNil = m.isNil ∧ List.Forall₂ (Part.Written reg) e.opt m.opt := by
  have hc : (e = .nil ∧ m = .nil) ∨ (e.isNil = false ∧ Expr.toProto reg e = .ok m) := by
    cases e with
    | nil => simp only [Expr.optToProto] at h; cases h; exact .inl ⟨rfl, rfl⟩
    | _ => exact .inr ⟨rfl, by simpa only [Expr.optToProto] using h⟩
  rcases hc with ⟨rfl, rfl⟩ | ⟨h1, h2⟩
  · exact ⟨rfl, .nil⟩
  · have h3 := toProto_not_nil h2
    refine ⟨by rw [h1, h3], ?_⟩
    simp only [Expr.opt, ExprMsg.opt, h1, h3]
    exact .cons h2 .nil

theorem root_written (reg : Reg) (r : ERoot) (m : RootMsg) (h : ERoot.toProto reg r = .ok m) :
    r.says = m.says ∧ List.Forall₂ (Part.Written reg) r.items m.items := by
  cases r with
  | rootReference => simp only [ERoot.toProto] at h; cases h; exact ⟨rfl, .nil⟩
  | outer n => simp only [ERoot.toProto] at h; cases h; exact ⟨rfl, .nil⟩
  | lambdaParam n => simp only [ERoot.toProto] at h; cases h; exact ⟨rfl, .nil⟩
  | expr e =>
    cases hn : e.isNil with
    | true =>
      cases e <;> simp [Expr.isNil] at hn
      simp only [ERoot.toProto] at h; cases h; exact ⟨rfl, .nil⟩
    | false =>
      have he : ERoot.toProto reg (.expr e) =
          (Expr.toProto reg e >>= fun m => .ok (.expr m)) := by
        cases e <;> first | simp [Expr.isNil] at hn; done | simp only [ERoot.toProto]
      have hs : ERoot.says (.expr e) = ("expression", 0) := by
        cases e <;> first | simp [Expr.isNil] at hn; done | rfl
      rw [he, Res.bind_eq_ok] at h
      obtain ⟨a, ha, h⟩ := h
      cases h
      refine ⟨hs, ?_⟩
      simp only [ERoot.items, Expr.opt, hn]
      exact .cons ha .nil

theorem ref_written (reg : Reg) (r : ERef) (m : RefMsg) (h : refToProto reg r = .ok m) :
    List.Forall₂ (Part.Written reg) r.items m.items := by
  cases r with
  | nil => simp only [refToProto] at h; cases h; exact .nil
  | seg s =>
    simp only [refToProto, Res.bind_eq_ok] at h
    obtain ⟨a, ha, h⟩ := h
    cases h
    exact .cons ha .nil
  | mask a => simp only [refToProto] at h; cases h; exact .cons rfl .nil

theorem bound_says (b : Option Bound) : BoundMsg.says (b.map Bound.toMsg) = Bound.says b := by
  cases b with
  | none => rfl
  | some b => cases b <;> rfl

/-! ## C72 -/

/-- **C72, writing.** The message written for any expression is of the same kind, states the same
flags, references, enum numbers, bounds, sort orders and counts, and its parts are the expression's
parts, written, in the same order. -/
theorem C72_wire (reg : Reg) (e : Expr) (m : ExprMsg) (h : e.toProto reg = .ok m) :
    m.kindName = e.kindName ∧ m.says = e.says ∧
      List.Forall₂ (Part.Written reg) e.items m.items := by
  cases e with
  | nil => simp [Expr.toProto] at h
  | lit l =>
    simp only [Expr.toProto, Res.bind_eq_ok] at h
    obtain ⟨a, ha, h⟩ := h
    cases h
    exact ⟨rfl, rfl, .cons ha .nil⟩
  | fieldRef root ref known =>
    simp only [Expr.toProto, Res.bind_eq_ok] at h
    obtain ⟨a, ha, b, hb, h⟩ := h
    cases h
    obtain ⟨h1, h2⟩ := root_written reg root b hb
    exact ⟨rfl, by simp [Expr.says, ExprMsg.says, h1], f2_append h2 (ref_written reg ref a ha)⟩
  | ifThen ifs els =>
    simp only [Expr.toProto, Res.bind_eq_ok] at h
    obtain ⟨a, ha, b, hb, h⟩ := h
    cases h
    obtain ⟨h1, h2⟩ := pairs_written reg ifs a ha
    obtain ⟨h3, h4⟩ := opt_written reg els b hb
    exact ⟨rfl, by simp [Expr.says, ExprMsg.says, h1, h3], f2_append h2 h4⟩
  | cast ty input fail =>
    simp only [Expr.toProto, Res.bind_eq_ok] at h
    obtain ⟨a, ha, b, hb, h⟩ := h
    cases h
    exact ⟨rfl, rfl, .cons ha (.cons hb .nil)⟩
  | dynParam ty ref =>
    simp only [Expr.toProto, Res.bind_eq_ok] at h
    obtain ⟨a, ha, h⟩ := h
    cases h
    exact ⟨rfl, rfl, .cons ha .nil⟩
  | switch mt ifs els =>
    simp only [Expr.toProto, Res.bind_eq_ok] at h
    obtain ⟨a, ha, b, hb, c, hc, h⟩ := h
    cases h
    obtain ⟨h1, h2⟩ := cases_written reg ifs b hb
    obtain ⟨h3, h4⟩ := opt_written reg els a ha
    exact ⟨rfl, by simp [Expr.says, ExprMsg.says, h1, h3], .cons hc (f2_append h2 h4)⟩
  | singularOr v os =>
    simp only [Expr.toProto, Res.bind_eq_ok] at h
    obtain ⟨a, ha, b, hb, h⟩ := h
    cases h
    exact ⟨rfl, rfl, .cons hb (exprs_written reg os a ha).2⟩
  | multiOr v os =>
    simp only [Expr.toProto, Res.bind_eq_ok] at h
    obtain ⟨a, ha, b, hb, h⟩ := h
    cases h
    obtain ⟨h1, h2⟩ := rows_written reg os a ha
    obtain ⟨h3, h4⟩ := exprs_written reg v b hb
    exact ⟨rfl, by simp [Expr.says, ExprMsg.says, h1, h3], f2_append h4 h2⟩
  | mapE n v kvs =>
    simp only [Expr.toProto, Res.bind_eq_ok] at h
    obtain ⟨a, ha, h⟩ := h
    cases h
    exact ⟨rfl, rfl, (pairs_written reg kvs a ha).2⟩
  | structE n v fs =>
    simp only [Expr.toProto, Res.bind_eq_ok] at h
    obtain ⟨a, ha, h⟩ := h
    cases h
    exact ⟨rfl, rfl, (exprs_written reg fs a ha).2⟩
  | listE n v vs =>
    simp only [Expr.toProto, Res.bind_eq_ok] at h
    obtain ⟨a, ha, h⟩ := h
    cases h
    exact ⟨rfl, rfl, (exprs_written reg vs a ha).2⟩
  | scalar a args =>
    simp only [Expr.toProto, Res.bind_eq_ok] at h
    obtain ⟨as, has, t, ht, h⟩ := h
    cases h
    obtain ⟨h1, h2⟩ := args_written reg args as has
    exact ⟨rfl, by simp [Expr.says, ExprMsg.says, h1], .cons ht h2⟩
  | window a w args sorts parts =>
    simp only [Expr.toProto, Res.bind_eq_ok] at h
    obtain ⟨as, has, ss, hss, ps, hps, t, ht, h⟩ := h
    cases h
    obtain ⟨h1, h2⟩ := args_written reg args as has
    obtain ⟨h3, h4⟩ := sorts_written reg sorts ss hss
    obtain ⟨h5, h6⟩ := exprs_written reg parts ps hps
    refine ⟨rfl, by simp [Expr.says, ExprMsg.says, h1, h3, h5, WinAttrs.toMsg, bound_says], ?_⟩
    exact .cons ht (f2_append (f2_append h2 h4) h6)
  | lambda n v ps body =>
    simp only [Expr.toProto, Res.bind_eq_ok] at h
    obtain ⟨a, ha, b, hb, h⟩ := h
    cases h
    exact ⟨rfl, rfl, f2_append (types_written reg ps a ha) (.cons hb .nil)⟩
  | scalarSubquery r =>
    simp only [Expr.toProto, Res.bind_eq_ok] at h
    obtain ⟨a, ha, h⟩ := h
    cases h
    exact ⟨rfl, rfl, .cons ha .nil⟩
  | inPredicate ns r =>
    simp only [Expr.toProto, Res.bind_eq_ok] at h
    obtain ⟨b, hb, a, ha, h⟩ := h
    cases h
    exact ⟨rfl, rfl, f2_append (exprs_written reg ns b hb).2 (.cons ha .nil)⟩
  | setPredicate op r =>
    simp only [Expr.toProto, Res.bind_eq_ok] at h
    obtain ⟨a, ha, h⟩ := h
    cases h
    exact ⟨rfl, rfl, .cons ha .nil⟩
  | setComparison red cmp l r =>
    cases r with
    | none => simp [Expr.toProto, Res.bind_eq_ok] at h
    | some r =>
      simp only [Expr.toProto, Res.bind_eq_ok] at h
      obtain ⟨b, hb, a, ha, h⟩ := h
      cases h
      exact ⟨rfl, rfl, .cons hb (.cons ha .nil)⟩

/-- C72 in full: whatever is written is read back as it was, against the same row type and with the
same registry. False: see the negations. -/
def C72_statement : Prop := ∀ (reg : Reg) (base : Option (List Ty)) (e : Expr) (m : ExprMsg),
  e.toProto reg = .ok m → Expr.fromProto reg base m = .ok e

/-- **C72 (partial).** An expression that a message can carry (`Expr.Sendable`), of any shape and
depth, is read back identically. Missing: the cases of the negations below, masks (C15), literals
outside `Lit.Faithful`, interval_compound types. -/
theorem C72_roundtrip_partial (reg : Reg) (base : Option (List Ty)) (e : Expr) (m : ExprMsg)
    (hs : e.Sendable reg base) (h : e.toProto reg = .ok m) : Expr.fromProto reg base m = .ok e :=
  expr_exact reg base e m hs h

/-- **C72 (partial)** for the measures' arguments and for sort fields. -/
theorem C72_arguments_partial (reg : Reg) (base : Option (List Ty)) (args : List EArg)
    (sorts : List ESort) (ma : List ArgMsg) (ms : List SortMsg)
    (ha : EArg.SendableList reg base args) (hs : ESort.SendableList reg base sorts)
    (h1 : EArg.toProtoList reg args = .ok ma) (h2 : ESort.toProtoList reg sorts = .ok ms) :
    EArg.fromProtoList reg base ma = .ok args ∧ ESort.fromProtoList reg base ms = .ok sorts :=
  ⟨args_exact reg base args ma ha h1, sorts_exact reg base sorts ms hs h2⟩

/-- A registry with one known scalar function 1, one known window function 2, and an id 3 the
collection does not know. -/
def exReg : Reg where
  decodeFunc := fun r => if r = 1 then some ⟨"u", "add"⟩ else if r = 2 then some ⟨"u", "rank"⟩
    else if r = 3 then some ⟨"u", "mystery:i32"⟩ else none
  scalar := fun r => if r = 1 then some "add" else none
  window := fun r => if r = 2 then some "rank" else none
  aggregate := fun _ => none
  custom := fun id => .ok (if id.name = "add" then 1 else if id.name = "rank" then 2 else 3, id.name)
  relTo := fun r => .ok r.addr
  relFrom := fun n => .ok ⟨n, [.prim .i32 2 0]⟩
  maskTo := id
  maskFrom := id

/-- the literal `7` of type i32 -/
def exLit7 : Lit := .prim (.int32 7) (.prim .i32 2 0)

/-- A window function with bounds, sort fields and a partition, over a switch, a cast, a call of an
unknown function on a lambda, a subquery and a field of a nested struct: all the hypotheses hold. -/
def exBig : Expr :=
  .window ⟨2, "rank", [("o", ["a", "b"])], .prim .i64 1 0⟩
    ⟨3, 1, 2, some (.preceding 5), some .currentRow⟩
    [.expr (.switch (.lit exLit7)
        [.mk exLit7 (.cast (.prim .string 2 0) (.lit exLit7) 1)]
        (.ifThen [.mk (.scalarSubquery ⟨4, [.prim .i32 2 0]⟩) (.listE true 3 [.lit exLit7])]
          (.mapE false 0 [.mk (.lit exLit7) (.structE false 0 [])]))),
     .expr (.scalar ⟨3, "mystery:i32", [], .prim .boolean 2 0⟩
        [.expr (.lambda NullabilityRequired 0 [.prim .i32 2 0]
          (.fieldRef (.lambdaParam 0) (.seg (.structField 0 .nil)) none)), .enum "X",
         .type (.decimal 1 0 2 10)])]
    [.mk (.fieldRef .rootReference (.seg (.structField 1 (.structField 0 .nil)))
        (some (.prim .fp32 1 0))) (.direction 2), .mk (.lit exLit7) (.func 9)]
    [.singularOr (.lit exLit7) [.lit exLit7, .dynParam (.prim .date 1 0) 3],
     .multiOr [.lit exLit7] [.mk [.lit exLit7], .mk []],
     .fieldRef (.expr (.structE false 0 [.lit exLit7])) (.seg (.structField 0 .nil))
       (some (.prim .i32 2 0))]

/-- the row type `exBig` is read against -/
def exBase : Option (List Ty) := some [.prim .i32 2 0, .struct 2 0 [.prim .fp32 1 0]]

theorem exBig_sendable : exBig.Sendable exReg exBase := by
  have hl : exLit7.Sendable := by
    simp [exLit7, Lit.Sendable, Lit.Faithful, Lit.NoCompound, Ty.NoCompound, PVal.Fits, Stated]
  simp only [exBig, exBase, Expr.Sendable, EArg.SendableList, EArg.Sendable, ECase.SendableList,
    EPair.SendableList, ESort.SendableList, Expr.SendableList, ERow.SendableList, ERoot.Sendable,
    hl, Ty.Sendable, Ty.PrecisionsOk, Ty.NoCompound, DeclaredIn, RelRef.Survives, Seg.KeysSendable,
    Recorded, exReg]
  simp
  refine ⟨by simp [Ty.PrecisionsOk, Ty.NoCompound], ?_, .struct 2 0 [.prim .i32 2 0], ?_, ?_⟩
  · exact .step _ _ _ _ _ (.field 1 1 _ _ _ _ rfl rfl)
      (.step _ _ _ _ _ (.field 0 0 _ _ _ _ rfl rfl) (.done _))
  · simp [Expr.getType, Expr.getTypes, exLit7, Lit.getType, getNullability]
  · exact .step _ _ _ _ _ (.field 0 0 _ _ _ _ rfl rfl) (.done _)

example : ∃ m, exBig.toProto exReg = .ok m ∧ Expr.fromProto exReg exBase m = .ok exBig := by
  obtain ⟨m, hm⟩ : ∃ m, exBig.toProto exReg = .ok m := by
    have : (exBig.toProto exReg).isOk = true := by
      simp [exBig, exLit7, Expr.toProto, Expr.optToProto, EArg.toProtoList, EArg.toProto,
        ECase.toProtoList, EPair.toProtoList, ESort.toProtoList, Expr.toProtoList,
        ERow.toProtoList, ERoot.toProto, refToProto, segToProto, segChildToProto, typeToProto,
        typeArgToProto, literalToProto, primLitKind, exReg]
    cases h : exBig.toProto exReg with
    | ok m => exact ⟨m, rfl⟩
    | err => simp [h] at this
    | panic => simp [h] at this
  exact ⟨m, hm, C72_roundtrip_partial _ _ _ _ exBig_sendable hm⟩

/-- **C72, negation: a switch without a default.** `NewSwitch` accepts it and it is written, but the
message cannot be read. -/
theorem C72_negation : ¬ C72_statement := by
  intro h
  have := h exReg none (.switch (.lit exLit7) [.mk exLit7 (.lit exLit7)] .nil)
    (.switch (.lit (.mk false 0 (.i32 7))) [.mk (.mk false 0 (.i32 7)) (.lit (.mk false 0 (.i32 7)))]
      .nil) (by
      simp only [Expr.toProto, Expr.optToProto, ECase.toProtoList, Res.ok_bind]
      rfl)
  exact absurd this (by simp [Expr.fromProto, literalFromProto, literalKindFromProto])

/-- The same, for every switch without a default: reading reports an error, or panics while reading
what is being matched. -/
theorem C72_negation_switch (reg : Reg) (base : Option (List Ty)) (mt : Expr) (cs : List ECase)
    (m : ExprMsg) (h : Expr.toProto reg (.switch mt cs .nil) = .ok m) (e : Expr) :
    Expr.fromProto reg base m ≠ .ok e := by
  simp only [Expr.toProto, Expr.optToProto, Res.ok_bind, Res.bind_eq_ok] at h
  obtain ⟨a, _, b, _, h⟩ := h
  cases h
  intro hc
  simp only [Expr.fromProto, Res.err_bind, Res.bind_eq_ok] at hc
  obtain ⟨_, _, hc⟩ := hc
  exact absurd hc (by simp)

/-- **C72, negation: references to lambda parameters and outer rows** are read back without their
type, whatever they recorded; `GetType` of what is read then gives no type. -/
theorem C72_negation_lambda (reg : Reg) (base : Option (List Ty)) (n : UInt32) (s : Seg)
    (known : Option Ty) (m : ExprMsg) (hn : s ≠ .nil) (hs : s.KeysSendable)
    (h : Expr.toProto reg (.fieldRef (.lambdaParam n) (.seg s) known) = .ok m) :
    Expr.fromProto reg base m = .ok (.fieldRef (.lambdaParam n) (.seg s) none) ∧
    Expr.getType (.fieldRef (.lambdaParam n) (.seg s) none) = .panic := by
  refine ⟨C72_roundtrip_partial reg base _ m ?_ (by simpa only [Expr.toProto] using h), rfl⟩
  simp [Expr.Sendable, ERoot.Sendable, hn, hs, Recorded]

/-- A lambda returning its parameter has a type when built, and none once read back. -/
example :
    let e : Expr := .lambda NullabilityRequired 0 [.prim .i32 2 0]
      (.fieldRef (.lambdaParam 0) (.seg (.structField 0 .nil)) (some (.prim .i32 2 0)))
    e.getType = .ok (.func NullabilityRequired [.prim .i32 2 0] (.prim .i32 2 0)) ∧
    (Expr.toProto exReg e >>= Expr.fromProto exReg none >>= Expr.getType) = .panic := by
  refine ⟨rfl, ?_⟩
  simp [Expr.toProto, refToProto, segToProto, segChildToProto, ERoot.toProto, typeToProto,
    Expr.fromProto, ERoot.fromProto, refFromProto, segFromProto, Seg.isNil, typeFromProto,
    ExprMsg.isNil, Expr.getType]

/-- **C72, negation: empty nested maps and lists** are written but not read; their `GetType` panics
anyway. -/
theorem C72_negation_empty (reg : Reg) (base : Option (List Ty)) (n : Bool) (v : UInt32) :
    (Expr.toProto reg (.mapE n v []) >>= Expr.fromProto reg base) = .err ∧
    (Expr.toProto reg (.listE n v []) >>= Expr.fromProto reg base) = .err := by
  simp [Expr.toProto, EPair.toProtoList, Expr.toProtoList, Expr.fromProto]

/-- **C72, negation: a sort field without a kind** is written but not read. -/
theorem C72_negation_sort (reg : Reg) (base : Option (List Ty)) (e : Expr) (ms : List SortMsg)
    (h : ESort.toProtoList reg [.mk e .nil] = .ok ms) (es : List ESort) :
    ESort.fromProtoList reg base ms ≠ .ok es := by
  simp only [ESort.toProtoList, Res.bind_eq_ok, Res.ok_bind] at h
  obtain ⟨a, _, h⟩ := h
  cases h
  intro hc
  simp only [ESort.fromProtoList, SortKind.toMsg, sortKindFromProto, Res.err_bind,
    Res.bind_eq_ok] at hc
  obtain ⟨_, _, hc⟩ := hc
  exact absurd hc (by simp)

/-! ## C73 -/

/-- The arguments of a call. -/
@[simp] def Expr.callArgs : Expr → List EArg
  | .scalar _ args => args
  | .window _ _ args _ _ => args
  | _ => []

/-- Neither the expression nor anything inside it is nil, labels of switches and arguments of calls included. -/
def Expr.Whole (e : Expr) : Prop :=
  ∀ x, Expr.Within x e → x ≠ .nil ∧ x ≠ .lit .nil ∧ EArg.nil ∉ x.callArgs

theorem precision_iff (p : Int32) : protoToTimePrecision p = .ok p ∧ ValidPrecision p ∨
    protoToTimePrecision p = .err ∧ ¬ ValidPrecision p := by
  by_cases h : ValidPrecision p
  · exact .inl ⟨protoToTimePrecision_valid h, h⟩
  · refine .inr ⟨?_, h⟩
    unfold protoToTimePrecision
    rw [if_pos]
    unfold ValidPrecision at h
    rw [GT.gt, Int32.lt_iff_toInt_lt, Int32.lt_iff_toInt_lt]
    simp at h ⊢
    omega

/-- **C73.** Which literal messages are read as nil. -/
theorem C73_literals (m : PLit) : literalFromProto m = .ok .nil ↔ m.Unreadable := by
  cases m with
  | nil => simp [literalFromProto, PLit.Unreadable]
  | mk b v k =>
    cases k with
    | precisionTime p x | precisionTimestamp p x | precisionTimestampTz p x =>
      simp only [literalFromProto, literalKindFromProto, precisionFromProto, PLit.Unreadable, Res.ok.injEq]
      rcases precision_iff p with ⟨h1, h2⟩ | ⟨h1, h2⟩ <;> simp [h1, h2]
    | intervalDayToSecond d =>
      simp only [literalFromProto, literalKindFromProto, intervalDayFromProto, PLit.Unreadable, Res.ok.injEq]
      cases d.mode with
      | precision p => rcases precision_iff p with ⟨h1, h2⟩ | ⟨h1, h2⟩ <;> simp [h1, h2]
      | _ => simp
    | intervalCompound y d =>
      cases d with
      | none => simp [literalFromProto, literalKindFromProto, intervalCompoundFromProto, PLit.Unreadable]
      | some d =>
        simp only [literalFromProto, literalKindFromProto, intervalCompoundFromProto, compoundDayPart, PLit.Unreadable,
          Res.ok.injEq]
        cases d.mode with
        | unset => simp
        | microseconds us =>
          by_cases hs : d.subseconds > 0
          · simp [hs]
          · simp [hs, protoToTimePrecision_valid (p := 6) (by simp [ValidPrecision])]
        | precision p => rcases precision_iff p with ⟨h1, h2⟩ | ⟨h1, h2⟩ <;> simp [h1, h2]
    | map kvs =>
      simp only [literalFromProto, literalKindFromProto, PLit.Unreadable, iff_false, Res.bind_eq_ok, not_exists, not_and]
      intro ls _
      match ls with
      | [] => simp
      | .mk k e :: _ => simp [Res.bind_eq_ok]
    | list vs =>
      simp only [literalFromProto, literalKindFromProto, PLit.Unreadable, iff_false, Res.bind_eq_ok, not_exists, not_and]
      intro ls _
      match ls with
      | [] => simp
      | l :: _ => simp [Res.bind_eq_ok]
    | emptyList t => rcases t with _ | ⟨_, _, _⟩ <;> simp [literalFromProto, literalKindFromProto, PLit.Unreadable, Res.bind_eq_ok]
    | emptyMap t => rcases t with _ | ⟨_, _, _, _⟩ <;> simp [literalFromProto, literalKindFromProto, PLit.Unreadable, Res.bind_eq_ok]
    | _ => simp [literalFromProto, literalKindFromProto, PLit.Unreadable, Res.bind_eq_ok]

theorem whole_of_parts {e : Expr} (hn : e ≠ .nil ∧ e ≠ .lit .nil ∧ EArg.nil ∉ e.callArgs) (h : ∀ c ∈ e.parts, c.Whole) : e.Whole := by
  intro x hx
  cases hx with
  | refl => exact hn
  | part c e hc hx => exact h c hc x hx

local macro "lits" h:ident : tactic => `(tactic|
  simp [ExprMsg.literals, ExprMsg.literalsL, PairMsg.literals, CaseMsg.literals, RowMsg.literals, RootMsg.literals,
    ArgMsg.literals, SortMsg.literals, $h:ident])

mutual
theorem read_whole (reg : Reg) (base : Option (List Ty)) : ∀ (m : ExprMsg) (e : Expr),
    Expr.fromProto reg base m = .ok e → (∀ l ∈ m.literals, ¬ l.Unreadable) → e.Whole
  | .nil, e, h, hl => by simp [Expr.fromProto] at h
  | .unset, e, h, hl => by simp [Expr.fromProto] at h
  | .lit m, e, h, hl => by
      simp only [Expr.fromProto, Res.bind_eq_ok] at h
      obtain ⟨l, hq, h⟩ := h
      cases h
      cases l with
      | nil => exact absurd ((C73_literals m).1 hq) (hl m (by simp [ExprMsg.literals]))
      | _ => exact whole_of_parts (by simp [Expr.ofLit]) (by simp [Expr.ofLit, Expr.parts])
  | .selection root ref, e, h, hl => by
      simp only [Expr.fromProto, Res.bind_eq_ok] at h
      obtain ⟨r, hr, _, _, h⟩ := h
      cases h
      cases root with
      | expr m =>
        simp only [ERoot.fromProto, Res.bind_eq_ok] at hr
        obtain ⟨x, hx, hr⟩ := hr
        cases hr
        exact whole_of_parts (by simp) (by simpa [Expr.parts] using read_whole reg base m x hx (fun q hq => hl q (by lits hq)))
      | _ =>
        simp only [ERoot.fromProto] at hr
        cases hr
        exact whole_of_parts (by simp) (by simp [Expr.parts])
  | .scalar ref options out args, e, h, hl => by
      simp only [Expr.fromProto, Res.bind_eq_ok] at h
      obtain ⟨as, has, h⟩ := h
      cases out with
      | none => simp at h
      | some out =>
        simp only [Res.bind_eq_ok] at h
        obtain ⟨_, _, _, _, h⟩ := h
        cases h
        have ha := read_wholeArgs reg base args as has (fun q hq => hl q (by lits hq))
        exact whole_of_parts (by simpa using ha.2) ha.1
  | .window ref options out w args sorts parts, e, h, hl => by
      simp only [Expr.fromProto, Res.bind_eq_ok] at h
      obtain ⟨as, has, ps, hps, ss, hss, h⟩ := h
      cases out with
      | none => simp at h
      | some out =>
        simp only [Res.bind_eq_ok] at h
        obtain ⟨_, _, _, _, h⟩ := h
        cases h
        have ha := read_wholeArgs reg base args as has (fun q hq => hl q (by lits hq))
        refine whole_of_parts (by simpa using ha.2) ?_
        intro c hc
        simp only [Expr.parts, List.mem_append] at hc
        rcases hc with (hc | hc) | hc
        · exact ha.1 c hc
        · exact read_wholeSorts reg base sorts ss hss (fun q hq => hl q (by lits hq)) c hc
        · exact read_wholeList reg base parts ps hps (fun q hq => hl q (by lits hq)) c hc
  | .ifThen ifs els, e, h, hl => by
      simp only [Expr.fromProto, Res.bind_eq_ok] at h
      obtain ⟨a, ha, b, hb, h⟩ := h
      cases h
      refine whole_of_parts (by simp) ?_
      intro c hc
      simp only [Expr.parts, List.mem_append, List.mem_singleton] at hc
      rcases hc with hc | rfl
      · exact read_wholePairs reg base ifs b hb (fun q hq => hl q (by lits hq)) c hc
      · exact read_whole reg base els _ ha (fun q hq => hl q (by lits hq))
  | .switch mt ifs els, e, h, hl => by
      simp only [Expr.fromProto, Res.bind_eq_ok] at h
      obtain ⟨a, ha, b, hb, d, hd, h⟩ := h
      cases h
      refine whole_of_parts (by simp) ?_
      intro c hc
      simp only [Expr.parts, List.cons_append, List.mem_cons, List.mem_append, List.not_mem_nil,
        or_false] at hc
      rcases hc with rfl | hc | rfl
      · exact read_whole reg base mt _ ha (fun q hq => hl q (by lits hq))
      · exact read_wholeCases reg base ifs d hd (fun q hq => hl q (by lits hq)) c hc
      · exact read_whole reg base els _ hb (fun q hq => hl q (by lits hq))
  | .singularOr v os, e, h, hl => by
      simp only [Expr.fromProto, Res.bind_eq_ok] at h
      obtain ⟨a, ha, b, hb, h⟩ := h
      cases h
      refine whole_of_parts (by simp) ?_
      intro c hc
      simp only [Expr.parts, List.mem_cons] at hc
      rcases hc with rfl | hc
      · exact read_whole reg base v _ ha (fun q hq => hl q (by lits hq))
      · exact read_wholeList reg base os b hb (fun q hq => hl q (by lits hq)) c hc
  | .multiOr v os, e, h, hl => by
      simp only [Expr.fromProto, Res.bind_eq_ok] at h
      obtain ⟨a, ha, b, hb, h⟩ := h
      cases h
      refine whole_of_parts (by simp) ?_
      intro c hc
      simp only [Expr.parts, List.mem_append] at hc
      rcases hc with hc | hc
      · exact read_wholeList reg base v a ha (fun q hq => hl q (by lits hq)) c hc
      · exact read_wholeRows reg base os b hb (fun q hq => hl q (by lits hq)) c hc
  | .cast ty input fail, e, h, hl => by
      cases ty with
      | none => simp [Expr.fromProto] at h
      | some ty =>
        simp only [Expr.fromProto, Res.bind_eq_ok] at h
        obtain ⟨a, ha, _, _, h⟩ := h
        cases h
        exact whole_of_parts (by simp) (by simpa [Expr.parts] using read_whole reg base input a ha (fun q hq => hl q (by lits hq)))
  | .mapE n v kvs, e, h, hl => by
      cases kvs with
      | nil => simp [Expr.fromProto] at h
      | cons kv kvs =>
        simp only [Expr.fromProto, Res.bind_eq_ok] at h
        obtain ⟨a, ha, h⟩ := h
        cases h
        exact whole_of_parts (by simp) (read_wholePairs reg base (kv :: kvs) a ha (fun q hq => hl q (by rw [ExprMsg.literals]; exact hq)))
  | .structE n v fs, e, h, hl => by
      simp only [Expr.fromProto, Res.bind_eq_ok] at h
      obtain ⟨a, ha, h⟩ := h
      cases h
      exact whole_of_parts (by simp) (read_wholeList reg base fs a ha (fun q hq => hl q (by lits hq)))
  | .listE n v vs, e, h, hl => by
      cases vs with
      | nil => simp [Expr.fromProto] at h
      | cons x xs =>
        simp only [Expr.fromProto, Res.bind_eq_ok] at h
        obtain ⟨a, ha, h⟩ := h
        cases h
        exact whole_of_parts (by simp) (read_wholeList reg base (x :: xs) a ha (fun q hq => hl q (by rw [ExprMsg.literals]; exact hq)))
  | .dynParam ty ref, e, h, hl => by
      simp only [Expr.fromProto, Res.bind_eq_ok] at h
      obtain ⟨l, _, h⟩ := h
      cases h
      exact whole_of_parts (by simp) (by simp [Expr.parts])
  | .scalarSubquery r, e, h, hl => by
      simp only [Expr.fromProto, Res.bind_eq_ok] at h
      obtain ⟨l, _, h⟩ := h
      cases h
      exact whole_of_parts (by simp) (by simp [Expr.parts])
  | .inPredicate ns r, e, h, hl => by
      simp only [Expr.fromProto, Res.bind_eq_ok] at h
      obtain ⟨a, ha, _, _, h⟩ := h
      cases h
      exact whole_of_parts (by simp) (read_wholeList reg base ns a ha (fun q hq => hl q (by lits hq)))
  | .setPredicate op r, e, h, hl => by
      simp only [Expr.fromProto, Res.bind_eq_ok] at h
      obtain ⟨l, _, h⟩ := h
      cases h
      exact whole_of_parts (by simp) (by simp [Expr.parts])
  | .setComparison red cmp l r, e, h, hl => by
      simp only [Expr.fromProto, Res.bind_eq_ok] at h
      obtain ⟨a, ha, _, _, h⟩ := h
      cases h
      exact whole_of_parts (by simp) (by simpa [Expr.parts] using read_whole reg base l a ha (fun q hq => hl q (by lits hq)))
  | .lambda params body, e, h, hl => by
      match params with
      | none => simp [Expr.fromProto] at h
      | some (n, v, ps) =>
        simp only [Expr.fromProto] at h
        split at h
        · simp at h
        · simp only [Res.bind_eq_ok] at h
          obtain ⟨_, _, h⟩ := h
          split at h
          · simp at h
          · simp only [Res.bind_eq_ok] at h
            obtain ⟨a, ha, h⟩ := h
            cases h
            exact whole_of_parts (by simp)
              (by simpa [Expr.parts] using read_whole reg base body a ha (fun q hq => hl q (by lits hq)))
theorem read_wholeList (reg : Reg) (base : Option (List Ty)) : ∀ (ms : List ExprMsg)
    (es : List Expr), Expr.fromProtoList reg base ms = .ok es → (∀ l ∈ ExprMsg.literalsL ms, ¬ l.Unreadable) → ∀ c ∈ es, c.Whole
  | [], es, h, hl => by simp only [Expr.fromProtoList] at h; cases h; simp
  | m :: ms, es, h, hl => by
      simp only [Expr.fromProtoList, Res.bind_eq_ok] at h
      obtain ⟨a, ha, b, hb, h⟩ := h
      cases h
      simp only [List.mem_cons, forall_eq_or_imp]
      exact ⟨read_whole reg base m a ha (fun q hq => hl q (by lits hq)), read_wholeList reg base ms b hb (fun q hq => hl q (by lits hq))⟩
theorem read_wholePairs (reg : Reg) (base : Option (List Ty)) : ∀ (ms : List PairMsg)
    (es : List EPair), EPair.fromProtoList reg base ms = .ok es → (∀ l ∈ PairMsg.literals ms, ¬ l.Unreadable) →
    ∀ c ∈ es.flatMap EPair.exprs, c.Whole
  | [], es, h, hl => by simp only [EPair.fromProtoList] at h; cases h; simp
  | .mk x y :: ms, es, h, hl => by
      simp only [EPair.fromProtoList, Res.bind_eq_ok] at h
      obtain ⟨a, ha, b, hb, d, hd, h⟩ := h
      cases h
      simp only [List.flatMap_cons, EPair.exprs, List.cons_append, List.nil_append, List.mem_cons,
        forall_eq_or_imp]
      exact ⟨read_whole reg base x a ha (fun q hq => hl q (by lits hq)), read_whole reg base y b hb (fun q hq => hl q (by lits hq)),
        read_wholePairs reg base ms d hd (fun q hq => hl q (by lits hq))⟩
theorem read_wholeCases (reg : Reg) (base : Option (List Ty)) : ∀ (ms : List CaseMsg)
    (es : List ECase), ECase.fromProtoList reg base ms = .ok es → (∀ l ∈ CaseMsg.literals ms, ¬ l.Unreadable) →
    ∀ c ∈ es.flatMap ECase.exprs, c.Whole
  | [], es, h, hl => by simp only [ECase.fromProtoList] at h; cases h; simp
  | .mk x y :: ms, es, h, hl => by
      simp only [ECase.fromProtoList, Res.bind_eq_ok] at h
      obtain ⟨a, ha, b, hb, d, hd, h⟩ := h
      cases h
      simp only [List.flatMap_cons, List.mem_append]
      rintro c (hc | hc)
      · have : c = b ∨ c = .lit a := by simpa [ECase.exprs, or_comm] using hc
        rcases this with rfl | rfl
        · exact read_whole reg base y _ hb (fun q hq => hl q (by lits hq))
        · refine whole_of_parts ⟨by simp, ?_, by simp⟩ (by simp [Expr.parts])
          rintro ⟨⟩
          exact hl x (by simp [CaseMsg.literals]) ((C73_literals x).1 ha)
      · exact read_wholeCases reg base ms d hd (fun q hq => hl q (by lits hq)) c hc
theorem read_wholeRows (reg : Reg) (base : Option (List Ty)) : ∀ (ms : List RowMsg)
    (es : List ERow), ERow.fromProtoList reg base ms = .ok es → (∀ l ∈ RowMsg.literals ms, ¬ l.Unreadable) →
    ∀ c ∈ es.flatMap ERow.exprs, c.Whole
  | [], es, h, hl => by simp only [ERow.fromProtoList] at h; cases h; simp
  | .mk x :: ms, es, h, hl => by
      simp only [ERow.fromProtoList, Res.bind_eq_ok] at h
      obtain ⟨a, ha, b, hb, h⟩ := h
      cases h
      simp only [List.flatMap_cons, ERow.exprs, List.mem_append]
      rintro c (hc | hc)
      · exact read_wholeList reg base x a ha (fun q hq => hl q (by lits hq)) c hc
      · exact read_wholeRows reg base ms b hb (fun q hq => hl q (by lits hq)) c hc
theorem read_wholeArgs (reg : Reg) (base : Option (List Ty)) : ∀ (ms : List ArgMsg)
    (es : List EArg), EArg.fromProtoList reg base ms = .ok es → (∀ l ∈ ArgMsg.literals ms, ¬ l.Unreadable) →
    (∀ c ∈ es.flatMap EArg.exprs, c.Whole) ∧ EArg.nil ∉ es
  | [], es, h, hl => by simp only [EArg.fromProtoList] at h; cases h; simp
  | m :: ms, es, h, hl => by
      simp only [EArg.fromProtoList, Res.bind_eq_ok] at h
      obtain ⟨a, ha, b, hb, h⟩ := h
      cases h
      obtain ⟨ih1, ih2⟩ := read_wholeArgs reg base ms b hb
        (fun q hq => hl q (by cases m <;> simp [ArgMsg.literals, hq]))
      have key : (∀ c ∈ a.exprs, c.Whole) ∧ a ≠ .nil := by
        cases m with
        | unset => simp [EArg.fromProto] at ha
        | enum s => simp only [EArg.fromProto] at ha; cases ha; simp [EArg.exprs]
        | type t =>
          simp only [EArg.fromProto, Res.bind_eq_ok] at ha
          obtain ⟨_, _, ha⟩ := ha
          cases ha
          simp [EArg.exprs]
        | value m =>
          simp only [EArg.fromProto, Res.bind_eq_ok] at ha
          obtain ⟨x, hx, ha⟩ := ha
          cases ha
          have hw := read_whole reg base m x hx (fun q hq => hl q (by lits hq))
          have hx' : EArg.ofExpr x = .expr x := by
            cases x <;> first | rfl | exact absurd rfl (hw .nil .refl).1
          rw [hx']
          simpa [EArg.exprs] using hw
      refine ⟨?_, by simpa [eq_comm] using ⟨key.2, ih2⟩⟩
      simp only [List.flatMap_cons, List.mem_append]
      rintro c (hc | hc)
      · exact key.1 c hc
      · exact ih1 c hc
theorem read_wholeSorts (reg : Reg) (base : Option (List Ty)) : ∀ (ms : List SortMsg)
    (es : List ESort), ESort.fromProtoList reg base ms = .ok es → (∀ l ∈ SortMsg.literals ms, ¬ l.Unreadable) →
    ∀ c ∈ es.map ESort.expr, c.Whole
  | [], es, h, hl => by simp only [ESort.fromProtoList] at h; cases h; simp
  | .mk x k :: ms, es, h, hl => by
      simp only [ESort.fromProtoList, Res.bind_eq_ok] at h
      obtain ⟨a, ha, k', _, b, hb, h⟩ := h
      cases h
      simp only [List.map_cons, ESort.expr, List.mem_cons, forall_eq_or_imp]
      exact ⟨read_whole reg base x a ha (fun q hq => hl q (by lits hq)), read_wholeSorts reg base ms b hb (fun q hq => hl q (by lits hq))⟩
end

/-- **C73 (partial).** Whatever `ExprFromProto` accepts, the expression it returns is not nil and contains no
nil subexpression at any depth, if no literal in the message is unreadable. Missing: such literals, which are read as nil
without an error (`C73_literals`, `C73_negation`). -/
theorem C73_no_nil_partial (reg : Reg) (base : Option (List Ty)) (m : ExprMsg) (e : Expr)
    (hl : ∀ l ∈ m.literals, ¬ l.Unreadable) (h : Expr.fromProto reg base m = .ok e) : e.Whole :=
  read_whole reg base m e h hl

/-- C73 without the condition. -/
def C73_statement : Prop := ∀ (reg : Reg) (base : Option (List Ty)) (m : ExprMsg) (e : Expr),
  Expr.fromProto reg base m = .ok e → e.Whole

/-- **C73, negation.** A timestamp before 1970 is read as the nil expression, without an error; as the input of a cast
it gives a cast of nil. -/
theorem C73_negation (reg : Reg) (base : Option (List Ty)) (b : Bool) (var : UInt32) (p : Int32) (v : Int64)
    (hv : v < 0) (f : Int32) :
    Expr.fromProto reg base (.lit (.mk b var (.precisionTimestamp p v))) = .ok .nil ∧
    Expr.fromProto reg base (.cast (some (.prim .string 1 0)) (.lit (.mk b var (.precisionTimestamp p v))) f) =
      .ok (.cast (.prim .string 1 0) .nil f) ∧ ¬ C73_statement := by
  have h : Expr.fromProto reg base (.lit (.mk b var (.precisionTimestamp p v))) = .ok .nil := by
    rw [Expr.fromProto, (C73_literals (.mk b var (.precisionTimestamp p v))).2 (Or.inr hv), Res.ok_bind, Expr.ofLit]
  refine ⟨h, ?_, fun hs => (hs reg base _ _ h .nil .refl).1 rfl⟩
  simp only [Expr.fromProto] at h ⊢
  simp [h, typeFromProto, primFromProto]

/-- **C73.** A message that lacks a required part is refused with an error: a nil message, one
without a kind, a call or cast without a type, an empty nested map or list, a lambda without
parameters or body, or a conditional without an else branch (given that what comes before it in the
message can be read). -/
theorem C73_missing (reg : Reg) (base : Option (List Ty)) :
    Expr.fromProto reg base .nil = .err ∧ Expr.fromProto reg base .unset = .err ∧
    (∀ r o args as, EArg.fromProtoList reg base args = .ok as →
      Expr.fromProto reg base (.scalar r o none args) = .err) ∧
    (∀ i f, Expr.fromProto reg base (.cast none i f) = .err) ∧
    (∀ n v, Expr.fromProto reg base (.mapE n v []) = .err) ∧
    (∀ n v, Expr.fromProto reg base (.listE n v []) = .err) ∧
    (∀ b, Expr.fromProto reg base (.lambda none b) = .err) ∧
    (∀ p, Expr.fromProto reg base (.lambda (some p) .nil) = .err) ∧
    (∀ ifs, Expr.fromProto reg base (.ifThen ifs .nil) = .err) ∧
    (∀ m e cs, Expr.fromProto reg base m = .ok e →
      Expr.fromProto reg base (.switch m cs .nil) = .err) ∧
    (∀ r o out args as, EArg.fromProtoList reg base args = .ok as → reg.decodeFunc r = none →
      Expr.fromProto reg base (.scalar r o out args) = .err) := by
  refine ⟨by simp [Expr.fromProto], by simp [Expr.fromProto], ?_, by simp [Expr.fromProto],
    by simp [Expr.fromProto], by simp [Expr.fromProto], by simp [Expr.fromProto], ?_,
    by simp [Expr.fromProto], ?_, ?_⟩
  · intro r o args as h; simp [Expr.fromProto, h]
  · rintro ⟨n, v, ps⟩; simp [Expr.fromProto, ExprMsg.isNil]
  · intro m e cs h; simp [Expr.fromProto, h]
  · intro r o out args as h hd
    cases out <;> simp [Expr.fromProto, h, resolveCall, hd]

/-- a conditional that casts a timestamp, without unreadable literals -/
example (reg : Reg) (base : Option (List Ty)) : Expr.Whole (.ifThen
    [.mk (.lit exLit7) (.cast (.prim .string 2 0) (.lit (.proto (.int64 5) (.prec .precisionTimestamp 2 0 6))) 1)]
    (.lit exLit7)) :=
  C73_no_nil_partial reg base
    (.ifThen [.mk (.lit (.mk false 0 (.i32 7)))
      (.cast (some (.prim .string 2 0)) (.lit (.mk false 0 (.precisionTimestamp 6 5))) 1)] (.lit (.mk false 0 (.i32 7)))) _
    (by simp [ExprMsg.literals, PairMsg.literals, PLit.Unreadable, ValidPrecision]) rfl

end Verif

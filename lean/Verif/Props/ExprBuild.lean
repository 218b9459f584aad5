import Verif.Lemmas.ExprBuild
import Verif.Props.FuncCall
import Verif.Props.ExtSet
/-!
# C109: expressions built with an `ExprBuilder`
-/

namespace Verif

/-- C109, as stated: an expression that builders make is the one they describe. -/
def C109_statement : Prop :=
  ∀ (c : Collection) (s s' : ExtSet) (schema : Option (List Ty)) (b : XExp) (e : Expr), c.Reachable →
    s.Tidy → s.Compact → s'.Small → XExp.build c schema b [] s = .ok (e, s') →
    b.Describes c s' schema [] e

/-- **C109 (partial)**: unless a nil expression is an argument of a function (or references are without
steps or have untyped map keys), an expression that builders make is the one they describe, with
respect to the extension set afterwards. The sets are the ones from which anchors are handed out
without gaps (see `C22_negation`). -/
theorem C109_built_partial (c : Collection) (s s' : ExtSet) (schema : Option (List Ty)) (b : XExp)
    (e : Expr) (hc : c.Reachable) (hb : b.Proper) (ht : s.Tidy) (hk : s.Compact) (hs : s'.Small)
    (h : XExp.build c schema b [] s = .ok (e, s')) : b.Describes c s' schema [] e :=
  build_describes c hc schema b [] s s' s' e hb ht hk hs (.refl _) h

/-- **C109 (partial)**: the same for aggregate functions. -/
theorem C109_aggregate_partial (c : Collection) (s s' : ExtSet) (schema : Option (List Ty)) (b : XAgg)
    (f : AggFn) (hc : c.Reachable) (hb : XArg.ProperList b.args) (ht : s.Tidy) (hk : s.Compact)
    (hs : s'.Small) (h : b.build c schema s = .ok (f, s')) :
    f.phase = b.phase ∧ f.invocation = b.invocation ∧ f.sorts = b.sorts ∧ f.a.options = b.opts ∧
      XArg.DescribesList c s' schema b.args [] f.args ∧
      ∃ v, CallsImpl c .aggregate s' b.id f.args f.a v := by
  simp only [XAgg.build, Res.bind_eq_ok] at h
  obtain ⟨⟨as, s1⟩, h1, h⟩ := h
  have a1 := args_advance c schema b.args [] s s1 as h1
  have a2 : s1.Advances s' := by
    have h' := h
    simp only [newAggregateFunc, Res.bind_eq_ok] at h'
    obtain ⟨⟨v, out, s2⟩, g1, ⟨a, s3⟩, g2, e⟩ := h'
    cases e
    exact (resolveVariant_advances g1).trans (callOf_advances g2)
  have hs1 := hs.earlier a2
  obtain ⟨t1, c1, w1⟩ := a1.2.2 ht hk hs1
  obtain ⟨_, _, w2⟩ := a2.2.2 t1 c1 hs
  obtain ⟨d1, d2⟩ := args_describe c hc schema b.args [] s s1 s' as hb ht hk hs1 w2 h1
  obtain ⟨g1, g2, g3, g4, g5, g6⟩ := C84_aggregate_partial c s1 s' b.id b.opts b.invocation b.phase
    b.sorts as f hc t1 d2 h
  refine ⟨g2, g3, g4, g5, ?_, ?_⟩
  · rw [g1]; exact d1
  · rw [g1]; exact g6

/-- **C109**: building leaves every anchor that was handed out before as it was, and the set in order. -/
theorem C109_set (c : Collection) (s s' : ExtSet) (schema : Option (List Ty)) (b : XExp)
    (e : Expr) (ht : s.Tidy) (hk : s.Compact) (hs : s'.Small)
    (h : XExp.build c schema b [] s = .ok (e, s')) : s.Grows s' ∧ s'.Tidy ∧ s'.Compact := by
  obtain ⟨h1, h2, h3⟩ := (build_advances c schema b [] s s' e h).2.2 ht hk hs
  exact ⟨h3, h1, h2⟩

/-- **C109 (partial)**: without function builders, whatever is described is built, and the set is left
as it is. -/
theorem C109_complete_partial (c : Collection) (s : ExtSet) (schema : Option (List Ty)) (b : XExp)
    (e : Expr) (hb : b.Proper) (hn : b.NoCalls) (hd : b.Describes c s schema [] e) :
    XExp.build c schema b [] s = .ok (e, s) :=
  describes_build c s schema b [] e hb hn hd

/-- **C109**: a function builder whose arguments (and partitions) are built one after the other builds
the call, whenever `NewScalarFunc`, `NewWindowFunc` or `NewAggregateFunc` accept these arguments with
the set as it then is (see C85) and a `RANGE` window has one sort field. -/
theorem C109_calls (c : Collection) (schema : Option (List Ty)) (ctx : Ctx) (id : ExtId)
    (opts : List (String × List String)) (args : List XArg) (as : List EArg) (s s1 : ExtSet)
    (ha : XArg.BuiltInTurn c schema ctx args s as s1) :
    (∀ r, newScalarFunc c s1 id opts as = .ok r → XExp.build c schema (.scalarFn id opts args) ctx s = .ok r) ∧
    (∀ (w : WinAttrs) (sorts : List ESort) (parts : List XExp) (ps : List Expr) (s2 : ExtSet),
      XExp.BuiltInTurn c schema ctx parts s1 ps s2 →
      (w.boundsType = boundsTypeRange → sorts.length = 1) →
      ∀ a w' as' sorts' parts' s3,
        newWindowFunc c s2 id opts w.invocation w.phase as = .ok (.window a w' as' sorts' parts', s3) →
        XExp.build c schema (.windowFn id opts w args sorts parts) ctx s = .ok (.window a w as sorts ps, s3)) ∧
    (∀ (phase invocation : Int32) (sorts : List ESort), ctx = [] → ∀ r,
      newAggregateFunc c s1 id opts invocation phase sorts as = .ok r →
      XAgg.build c schema ⟨id, opts, phase, invocation, args, sorts⟩ s = .ok r) := by
  have hargs := args_inTurn ha
  refine ⟨fun r hr => ?_, fun w sorts parts ps s2 hp hrange a w' as' sorts' parts' s3 hr => ?_,
    fun phase invocation sorts hctx r hr => ?_⟩
  · simp only [XExp.build, hargs, Res.ok_bind, hr]
  · have hw : w' = ⟨w.phase, w.invocation, 0, none, none⟩ ∧ as' = as := by
      have h := hr
      simp only [newWindowFunc, Res.bind_eq_ok] at h
      obtain ⟨⟨v, out, t1⟩, _, h⟩ := h
      simp only at h
      split at h
      · cases h
      simp only [Res.bind_eq_ok] at h
      obtain ⟨⟨b, t2⟩, _, h⟩ := h
      cases h
      exact ⟨rfl, rfl⟩
    obtain ⟨rfl, rfl⟩ := hw
    have hv : ¬(w.boundsType = boundsTypeRange ∧ sorts.length ≠ 1) := fun h => h.2 (hrange h.1)
    simp only [XExp.build, hargs, Res.ok_bind, list_inTurn hp, hr, finishWindow, if_neg hv]
  · subst hctx
    simp only [XAgg.build, hargs, Res.ok_bind, hr]

/-- **C109 (partial)**: if what is put into the builders can be carried by a message, and the types of
the calls too, the built expression, written to a message, is read back as the same expression by a
registry of the same collection and the set afterwards. -/
theorem C109_roundtrip_partial (rest : Reg) (c : Collection) (s s' : ExtSet) (schema : Option (List Ty))
    (b : XExp) (e : Expr) (m : ExprMsg) (hc : c.Reachable) (hb : b.Proper) (ht : s.Tidy)
    (hk : s.Compact) (hs : s'.Small) (hsend : b.Sendable (Reg.ofSet rest c s) schema)
    (h : XExp.build c schema b [] s = .ok (e, s')) (hty : b.CallTypes Ty.Sendable e)
    (hm : e.toProto (Reg.ofSet rest c s') = .ok m) :
    Expr.fromProto (Reg.ofSet rest c s') schema m = .ok e := by
  obtain ⟨g, _, _⟩ := C109_set c s s' schema b e ht hk hs h
  have hsm := hs.earlier (build_advances c schema b [] s s' e h)
  exact C72_roundtrip_partial _ _ _ _ (describes_sendable rest c s' schema b [] e
    (xexp_within (ofSet_within rest c hk hsm g) schema b hsend) hty
    (C109_built_partial c s s' schema b e hc hb ht hk hs h)) hm

/-- **C109 (partial)**: the same when the extension set is itself written to the plan and read from it,
with every extension of the set loaded. -/
theorem C109_plan_partial (rest : Reg) (c : Collection) (s s' : ExtSet) (schema : Option (List Ty))
    (b : XExp) (e : Expr) (m : ExprMsg) (o : Orders) (loaded : String → Bool) (hc : c.Reachable)
    (hb : b.Proper) (ht : s.Tidy) (hk : s.Compact) (hs : s'.Small)
    (hsend : b.Sendable (Reg.ofSet rest c s) schema)
    (h : XExp.build c schema b [] s = .ok (e, s')) (hty : b.CallTypes Ty.Sendable e)
    (hm : e.toProto (Reg.ofSet rest c s') = .ok m)
    (hv : s'.count .type = 0 ∨ s'.count .variation ≤ 1) (ho : o.Of s')
    (hload : ∀ a u, s'.urns.get a = some u → loaded u = true) :
    ∃ p s'', ExtSet.toProto o = .ok p ∧ getExtensionSet loaded (.ofProto p) = .ok s'' ∧
      Expr.fromProto (Reg.ofSet rest c s'') schema m = .ok e := by
  obtain ⟨g, t', k'⟩ := C109_set c s s' schema b e ht hk hs h
  have hsm := hs.earlier (build_advances c schema b [] s s' e h)
  obtain ⟨p, s'', h1, h2, h3, h4, _⟩ := C23_roundtrip_partial s' o loaded t' hv ho hload
  rw [expr_reg (reg := Reg.ofSet rest c s') (reg' := Reg.ofSet rest c s'') rfl rfl] at hm
  refine ⟨p, s'', h1, h2, C72_roundtrip_partial _ _ _ _ ?_ hm⟩
  have g' : s'.Grows s'' := ⟨fun k a id hh => (h3 k a).trans hh, fun k id a hh => (h4 k id).trans hh⟩
  refine expr_within (ofSet_within rest c k' hs g') schema e ?_
  exact describes_sendable rest c s' schema b [] e
    (xexp_within (ofSet_within rest c hk hsm g) schema b hsend) hty
    (C109_built_partial c s s' schema b e hc hb ht hk hs h)

/-- an extension with two scalar functions and a window function of one `i32` -/
def threeFile : ExtFile := fileOf [declOf "f" [.i32], declOf "g" [.i32]] [] [declOf "w" [.i32]]

/-- the collection with that extension -/
def threeCollection : Collection := (Collection.zero.load (some threeFile)).1

theorem three_reachable : threeCollection.Reachable := .load _ _ .zero

/-- an id in that extension -/
def threeId (name : String) : ExtId := ⟨"extension:acme:f", name⟩

/-- the first column -/
def colZero : XExp := .ref .rootReference (.seg (.structField 0 .nil))

/-- `w(f(column 0)) over (partition by cast(g(?1) as i64), lambda)` -/
def threeBuilder : XExp :=
  .windowFn (threeId "w") [("o", ["p"])] ⟨phaseInitialToResult, 1, 1, some .currentRow, some .unbounded⟩
    [.expr (.scalarFn (threeId "f") [] [.expr colZero])] []
    [.cast (.prim .i64 1 0) 1 (.scalarFn (threeId "g") [] [.expr (.dynParam (some (.prim .i32 1 0)) 1)]),
      .lambda (some ⟨NullabilityRequired, 0, [some (.prim .i32 1 0)]⟩) colZero]

/-- what it builds, with a new extension set and a schema of one column -/
def threeExpr : Expr :=
  .window ⟨3, "w:i32", [("o", ["p"])], .prim .i32 1 0⟩
    ⟨phaseInitialToResult, 1, 1, some .currentRow, some .unbounded⟩
    [.expr (.scalar ⟨1, "f:i32", [], .prim .i32 1 0⟩
      [.expr (.fieldRef .rootReference (.seg (.structField 0 .nil)) (some (.prim .i32 1 0)))])] []
    [.cast (.prim .i64 1 0) (.scalar ⟨2, "g:i32", [], .prim .i32 1 0⟩ [.expr (.dynParam (.prim .i32 1 0) 1)]) 1,
      .lambda NullabilityRequired 0 [.prim .i32 1 0]
        (.fieldRef .rootReference (.seg (.structField 0 .nil)) (some (.prim .i32 1 0)))]

theorem new_compact : ExtSet.new.Compact := new_room.1

theorem three_proper : threeBuilder.Proper := by
  simp [threeBuilder, colZero, XExp.Proper, XArg.ProperList, XExp.ProperList, Seg.KeysTyped]

/-- The hypotheses are met by an expression with three functions. -/
example (rest : Reg) : ∃ s', XExp.build threeCollection (some [.prim .i32 1 0]) threeBuilder [] .new =
      .ok (threeExpr, s') ∧ s'.Small ∧
      threeBuilder.Sendable (Reg.ofSet rest threeCollection .new) (some [.prim .i32 1 0]) ∧
      threeBuilder.CallTypes Ty.Sendable threeExpr ∧
      (∃ m, threeExpr.toProto (Reg.ofSet rest threeCollection s') = .ok m) ∧
      (s'.decode .func 1 = some (threeId "f:i32") ∧ s'.decode .func 2 = some (threeId "g:i32") ∧
        s'.decode .func 3 = some (threeId "w:i32")) := by
  refine ⟨_, rfl, ⟨fun k => by cases k <;> decide, by decide⟩, ?_, ?_, ?_, rfl, rfl, rfl⟩
  · simp [threeBuilder, colZero, XExp.Sendable, XArg.SendableList, XExp.SendableList, ESort.SendableList,
      Ty.Sendable, Ty.PrecisionsOk, Ty.NoCompound, ERoot.Sendable, Seg.KeysSendable]
  · simp [threeBuilder, threeExpr, colZero, XExp.CallTypes, XArg.CallTypes,
      XExp.CallTypesList, Ty.Sendable, Ty.PrecisionsOk, Ty.NoCompound]
  · simp only [threeExpr, Expr.toProto, EArg.toProtoList, EArg.toProto, ESort.toProtoList,
      Expr.toProtoList, refToProto, ERoot.toProto]
    exact ⟨_, rfl⟩

/-- A window function with an argument and a partition that are calls: both are built in turn, and
`NewWindowFunc` accepts the argument. -/
example : ∃ as s1 ps s2 a w' as' sorts' parts' s3,
    XArg.BuiltInTurn threeCollection (some [.prim .i32 1 0]) []
      [.expr (.scalarFn (threeId "f") [] [.expr colZero])] .new as s1 ∧
    XExp.BuiltInTurn threeCollection (some [.prim .i32 1 0]) []
      [.scalarFn (threeId "g") [] [.expr (.dynParam (some (.prim .i32 1 0)) 1)]] s1 ps s2 ∧
    newWindowFunc threeCollection s2 (threeId "w") [] 1 phaseInitialToResult as =
      .ok (.window a w' as' sorts' parts', s3) :=
  ⟨_, _, _, _, _, _, _, _, _, _, .expr rfl (fun h => by cases h) .nil, .cons rfl .nil, rfl⟩

/-- Without functions: a lambda with a reference to a column is described and built. -/
example : XExp.build threeCollection (some [.prim .i32 1 0])
    (.lambda (some ⟨NullabilityRequired, 0, [some (.prim .i64 1 0)]⟩) (.lambdaParam 0 .nil 0)) [] .new =
    .ok (.lambda NullabilityRequired 0 [.prim .i64 1 0]
      (.fieldRef (.lambdaParam 0) (.seg (.structField 0 .nil)) (some (.prim .i64 1 0))), .new) := rfl

/-- An aggregate function is built. -/
example : ∃ f s', XAgg.build (Collection.zero.load (some sampleFile)).1 (some [.prim .i32 1 0])
    ⟨⟨"extension:acme:geo", "total:i32"⟩, [], 3, 1, [.expr colZero], []⟩ .new = .ok (f, s') ∧
    s'.Small ∧ f.a.declaration = "total:i32" :=
  ⟨_, _, rfl, ⟨fun k => by cases k <;> decide, by decide⟩, rfl⟩

/-- a nil expression and an `i32` given to `f`, which has one parameter -/
def nilBuilder : XExp :=
  .scalarFn (threeId "f") [] [.expr (.wrap .nil false), .expr (.dynParam (some (.prim .i32 1 0)) 1)]

/-- C109 as stated is false: a nil expression given as an argument is not counted, so a call with two
arguments is built of a function with one parameter. -/
theorem C109_negation : ¬ C109_statement := by
  intro h
  obtain ⟨a, s', he, hs⟩ : ∃ a s', XExp.build threeCollection none nilBuilder [] .new =
      .ok (.scalar a [.nil, .expr (.dynParam (.prim .i32 1 0) 1)], s') ∧ s'.Small :=
    ⟨_, _, rfl, fun k => by cases k <;> decide, by decide⟩
  have := h _ _ _ _ _ _ three_reachable new_tidy new_compact hs he
  simp only [nilBuilder, XExp.Describes, XArg.DescribesList, Expr.scalar.injEq] at this
  obtain ⟨_, as, _, ⟨_, h1⟩, _, ⟨_, _, h2, _⟩, _⟩ := this
  rw [← h1] at h2
  cases h2

/-- ... and it cannot be written: `ToProto` panics. -/
theorem C109_negation_panics (reg : Reg) : ∃ a args s', XExp.build threeCollection none nilBuilder [] .new =
    .ok (.scalar a (.nil :: args), s') ∧ Expr.toProto reg (.scalar a (.nil :: args)) = .panic :=
  ⟨_, [.expr (.dynParam (.prim .i32 1 0) 1)], _, rfl, by
    simp only [Expr.toProto, EArg.toProtoList, EArg.toProto]; rfl⟩

/-- C109, round trip: without the hypothesis that there are no references to lambda parameters it is
false: the type of such a reference is lost. -/
theorem C109_negation_lambda (rest : Reg) : ∃ b e e', b.Proper ∧
      XExp.build threeCollection none b [] .new = .ok (e, .new) ∧
      (e.toProto (Reg.ofSet rest threeCollection .new) >>=
        Expr.fromProto (Reg.ofSet rest threeCollection .new) none) = .ok e' ∧
      e = .lambda NullabilityRequired 0 [.prim .i64 1 0]
        (.fieldRef (.lambdaParam 0) (.seg (.structField 0 .nil)) (some (.prim .i64 1 0))) ∧
      e' = .lambda NullabilityRequired 0 [.prim .i64 1 0]
        (.fieldRef (.lambdaParam 0) (.seg (.structField 0 .nil)) none) :=
  ⟨.lambda (some ⟨NullabilityRequired, 0, [some (.prim .i64 1 0)]⟩) (.lambdaParam 0 .nil 0), _, _, trivial,
    rfl, by
      simp [Expr.toProto, refToProto, segToProto, segChildToProto, ERoot.toProto, typeToProto,
        Expr.fromProto, ERoot.fromProto, refFromProto, segFromProto, Seg.isNil, typeFromProto,
        ExprMsg.isNil, primFromProto, primToProto], rfl, rfl⟩

/-- the call of `f` -/
def callF : Expr := .scalar ⟨2, "f:i32", [], .prim .i32 1 0⟩ [exprOf .i32]
/-- the call of `g` with an argument -/
def callG (x : EArg) : Expr := .scalar ⟨2, "g:i32", [], .prim .i32 1 0⟩ [x]

theorem read_calls (reg : Reg) (n : String) (h : resolveCall reg reg.scalar 2 = .ok (2, n)) :
    (callF.toProto reg >>= Expr.fromProto reg none) =
      .ok (.scalar ⟨2, n, [], .prim .i32 1 0⟩ [exprOf .i32]) ∧
    ((callG (.expr callF)).toProto reg >>= Expr.fromProto reg none) =
      .ok (.scalar ⟨2, n, [], .prim .i32 1 0⟩
        [.expr (.scalar ⟨2, n, [], .prim .i32 1 0⟩ [exprOf .i32])]) := by
  constructor <;>
    simp [callF, callG, exprOf, Expr.toProto, EArg.toProtoList, EArg.toProto, typeToProto, primToProto,
      Expr.fromProto, EArg.fromProtoList, EArg.fromProto, EArg.ofExpr, typeFromProto, primFromProto, h]

/-- C109 for extension sets with gaps is false: with `f` as function 2 of the plan, building `g` of a
call of `f` gives `g` the reference 2 as well; the call of `f`, which was read back as such before, is
now read back as a call of `g`. -/
theorem C109_negation_sparse (rest : Reg) : ∃ s s', getExtensionSet (fun _ => true)
      ⟨[(1, "extension:acme:f")], [some (.func 1 2 "f:i32")]⟩ = .ok s ∧
      XExp.build threeCollection none (.scalarFn (threeId "g") [] [.expr (.wrap callF false)]) [] s =
        .ok (callG (.expr callF), s') ∧
      (callF.toProto (Reg.ofSet rest threeCollection s) >>=
        Expr.fromProto (Reg.ofSet rest threeCollection s) none) = .ok callF ∧
      ((callG (.expr callF)).toProto (Reg.ofSet rest threeCollection s') >>=
        Expr.fromProto (Reg.ofSet rest threeCollection s') none) =
        .ok (callG (.expr (callG (exprOf .i32)))) :=
  ⟨_, _, rfl, rfl, (read_calls _ "f:i32" rfl).1, (read_calls _ "g:i32" rfl).2⟩

end Verif

import Verif.Lemmas.Lambda
/-!
# C20: lambda parameters are lexically scoped
-/

namespace Verif

/-- C20, types. Building any tree of builders inside the lambdas `ctx` (innermost last) gives an
expression in which every lambda parameter reference, `k` steps out and to parameter `i`, is to an
existing parameter `i` of the `k`-th enclosing lambda and has that parameter's type (followed along
the rest of the reference). The finished expressions put into the tree are assumed to have that
property on their own. -/
theorem C20_scoped (env : BEnv) (b : BExp) (ctx ctx' : Ctx) (e : Expr) (hc : b.ClosedParts)
    (h : BExp.build env b ctx = (.ok e, ctx')) : e.Scoped ctx.reverse :=
  (build_scoped env b ctx e ctx' hc h).1

/-- C20, rejection. If some reference in the tree is to a lambda that does not enclose it, or past
the parameters of the lambda, or is negative, building does not succeed. -/
theorem C20_rejected (env : BEnv) (b : BExp) (ctx ctx' : Ctx) (e : Expr) (hc : b.ClosedParts)
    (h : BExp.build env b ctx = (.ok e, ctx')) : b.RefsInScope ctx.reverse :=
  (build_scoped env b ctx e ctx' hc h).2

/-- C20, single references: accepted exactly when the parameter exists, with its type; otherwise
rejected with an error. -/
theorem C20_reference (env : BEnv) (ctx : Ctx) (i : Int32) (c : Seg) (k : UInt32)
    (hk : c.KeysTyped) :
    (∀ t, ParamHasType ctx.reverse k.toNat i c t →
      BExp.build env (.lambdaParam i c k) ctx =
        (.ok (.fieldRef (.lambdaParam k) (.seg (.structField i c)) (some t)), ctx)) ∧
    ((¬ ∃ t, ParamHasType ctx.reverse k.toNat i c t) →
      BExp.build env (.lambdaParam i c k) ctx = (.err, ctx)) := by
  obtain ⟨h1, h2⟩ := lambdaParamType_spec ctx i c k hk
  refine ⟨fun t ht => ?_, fun hn => ?_⟩
  · simp [BExp.build, (h2 t).2 ht]
  · cases hr : lambdaParamType ctx i c k with
    | ok t => exact absurd ⟨t, (h2 t).1 hr⟩ hn
    | err => simp [BExp.build, hr]
    | panic => exact absurd hr h1

/-- C20, state. A build that returns, with an expression or with an error, leaves the scope as it
was. -/
theorem C20_context (env : BEnv) (b : BExp) (ctx : Ctx)
    (h : (BExp.build env b ctx).1 ≠ .panic) : (BExp.build env b ctx).2 = ctx :=
  build_ctx env b ctx h

/-- C20, state. If function resolution does not panic, building a tree without missing builders does
return, so it always leaves the scope as it was. -/
theorem C20_returns (env : BEnv) (hs : ∀ i as, env.scalar i as ≠ .panic)
    (hw : ∀ i as, env.window i as ≠ .panic) (b : BExp) (ctx : Ctx) (hb : b.Complete) :
    (BExp.build env b ctx).1 ≠ .panic ∧ (BExp.build env b ctx).2 = ctx :=
  have h := build_ne_panic env hs hw b ctx hb
  ⟨h, build_ctx env b ctx h⟩

/-- an environment that resolves every function -/
def exBEnv : BEnv := ⟨fun _ _ => .ok ⟨0, "f", [], .prim .i32 2 0⟩,
  fun _ _ => .ok ⟨0, "f", [], .prim .i32 2 0⟩, none⟩

/-- `(i64, string) -> (i32) -> f($0, outer $1)`: the inner reference has type i32, the outer one
string; both are in scope, and the tree meets the hypotheses of the theorems above. -/
example :
    let inner : BExp := .lambda (some ⟨NullabilityRequired, 0, [some (.prim .i32 2 0)]⟩)
      (.scalarFn 0 [.expr (.lambdaParam 0 .nil 0), .expr (.lambdaParam 1 .nil 1)])
    let b : BExp := .lambda
      (some ⟨NullabilityRequired, 0, [some (.prim .i64 2 0), some (.prim .string 1 0)]⟩) inner
    BExp.build exBEnv b [] = (.ok (.lambda NullabilityRequired 0 [.prim .i64 2 0, .prim .string 1 0]
      (.lambda NullabilityRequired 0 [.prim .i32 2 0]
        (.scalar ⟨0, "f", [], .prim .i32 2 0⟩
          [.expr (.fieldRef (.lambdaParam 0) (.seg (.structField 0 .nil)) (some (.prim .i32 2 0))),
           .expr (.fieldRef (.lambdaParam 1) (.seg (.structField 1 .nil))
             (some (.prim .string 1 0)))]))), []) ∧
    b.ClosedParts ∧ b.Complete ∧ (∀ i as, exBEnv.scalar i as ≠ .panic) := by
  refine ⟨by rfl, ?_, ?_, by simp [exBEnv]⟩
  · simp [BExp.ClosedParts, BArg.ClosedPartsList, Seg.KeysTyped]
  · simp [BExp.Complete, BArg.CompleteList, Seg.KeysTyped]

/-- Two steps out of one lambda is an error, and the scope is restored. -/
example : BExp.build exBEnv (.lambda (some ⟨NullabilityRequired, 0, [some (.prim .i32 2 0)]⟩)
    (.lambdaParam 0 .nil 1)) [] = (.err, []) := by rfl

end Verif

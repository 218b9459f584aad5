import Verif.Spec.Lambda
import Verif.Props.FieldRef
/-! # Lemmas about lambda scoping -/

namespace Verif

theorem paramHasType_weaken {env : List (List Ty)} {k i c t} (extra : List (List Ty))
    (h : ParamHasType env k i c t) : ParamHasType (env ++ extra) k i c t := by
  obtain ⟨ps, p, h1, h2⟩ := h
  refine ⟨ps, p, ?_, h2⟩
  rw [List.getElem?_append_left (List.getElem?_eq_some_iff.1 h1).1, h1]

mutual
theorem scoped_weaken (extra : List (List Ty)) : ∀ (e : Expr) (env : List (List Ty)),
    e.Scoped env → e.Scoped (env ++ extra)
  | .nil, _, _ => trivial
  | .lit _, _, _ => trivial
  | .fieldRef root ref kt, env, h => by
    simp only [Expr.Scoped] at *
    refine ⟨scopedRoot_weaken extra root env h.1, fun k hk => ?_⟩
    obtain ⟨i, c, t, h1, h2, h3⟩ := h.2 k hk
    exact ⟨i, c, t, h1, h2, paramHasType_weaken extra h3⟩
  | .ifThen ifs els, env, h =>
    ⟨scopedPairs_weaken extra ifs env h.1, scoped_weaken extra els env h.2⟩
  | .cast _ e _, env, h => scoped_weaken extra e env h
  | .dynParam _ _, _, _ => trivial
  | .switch m ifs els, env, h =>
    ⟨scoped_weaken extra m env h.1, scopedCases_weaken extra ifs env h.2.1,
      scoped_weaken extra els env h.2.2⟩
  | .singularOr v os, env, h =>
    ⟨scoped_weaken extra v env h.1, scopedList_weaken extra os env h.2⟩
  | .multiOr vs os, env, h =>
    ⟨scopedList_weaken extra vs env h.1, scopedRows_weaken extra os env h.2⟩
  | .mapE _ _ kvs, env, h => scopedPairs_weaken extra kvs env h
  | .structE _ _ fs, env, h => scopedList_weaken extra fs env h
  | .listE _ _ fs, env, h => scopedList_weaken extra fs env h
  | .scalar _ args, env, h => scopedArgs_weaken extra args env h
  | .window _ _ args ss ps, env, h =>
    ⟨scopedArgs_weaken extra args env h.1, scopedSorts_weaken extra ss env h.2.1,
      scopedList_weaken extra ps env h.2.2⟩
  | .lambda _ _ ps body, env, h => scoped_weaken extra body (ps :: env) h
  | .scalarSubquery _, _, _ => trivial
  | .inPredicate ns _, env, h => scopedList_weaken extra ns env h
  | .setPredicate _ _, _, _ => trivial
  | .setComparison _ _ l _, env, h => scoped_weaken extra l env h
theorem scopedList_weaken (extra : List (List Ty)) : ∀ (es : List Expr) (env : List (List Ty)),
    Expr.ScopedList env es → Expr.ScopedList (env ++ extra) es
  | [], _, _ => trivial
  | e :: es, env, h => ⟨scoped_weaken extra e env h.1, scopedList_weaken extra es env h.2⟩
theorem scopedPairs_weaken (extra : List (List Ty)) : ∀ (es : List EPair) (env : List (List Ty)),
    EPair.ScopedList env es → EPair.ScopedList (env ++ extra) es
  | [], _, _ => trivial
  | .mk a b :: es, env, h => ⟨scoped_weaken extra a env h.1, scoped_weaken extra b env h.2.1,
      scopedPairs_weaken extra es env h.2.2⟩
theorem scopedCases_weaken (extra : List (List Ty)) : ∀ (es : List ECase) (env : List (List Ty)),
    ECase.ScopedList env es → ECase.ScopedList (env ++ extra) es
  | [], _, _ => trivial
  | .mk _ b :: es, env, h => ⟨scoped_weaken extra b env h.1, scopedCases_weaken extra es env h.2⟩
theorem scopedRows_weaken (extra : List (List Ty)) : ∀ (es : List ERow) (env : List (List Ty)),
    ERow.ScopedList env es → ERow.ScopedList (env ++ extra) es
  | [], _, _ => trivial
  | .mk a :: es, env, h => ⟨scopedList_weaken extra a env h.1, scopedRows_weaken extra es env h.2⟩
theorem scopedRoot_weaken (extra : List (List Ty)) : ∀ (r : ERoot) (env : List (List Ty)),
    r.Scoped env → r.Scoped (env ++ extra)
  | .expr e, env, h => scoped_weaken extra e env h
  | .rootReference, _, _ => trivial
  | .outer _, _, _ => trivial
  | .lambdaParam _, _, _ => trivial
theorem scopedArgs_weaken (extra : List (List Ty)) : ∀ (es : List EArg) (env : List (List Ty)),
    EArg.ScopedList env es → EArg.ScopedList (env ++ extra) es
  | [], _, _ => trivial
  | .expr e :: es, env, h => ⟨scoped_weaken extra e env h.1, scopedArgs_weaken extra es env h.2⟩
  | .nil :: es, env, h => scopedArgs_weaken extra es env h
  | .type _ :: es, env, h => scopedArgs_weaken extra es env h
  | .enum _ :: es, env, h => scopedArgs_weaken extra es env h
theorem scopedSorts_weaken (extra : List (List Ty)) : ∀ (es : List ESort) (env : List (List Ty)),
    ESort.ScopedList env es → ESort.ScopedList (env ++ extra) es
  | [], _, _ => trivial
  | .mk e _ :: es, env, h => ⟨scoped_weaken extra e env h.1, scopedSorts_weaken extra es env h.2⟩
end

theorem BM.bind_ok {α β : Type} {x : BM α} {f : α → BM β} {c c' : Ctx} {b : β}
    (h : (x.bind f) c = (.ok b, c')) :
    ∃ a c'', x c = (.ok a, c'') ∧ f a c'' = (.ok b, c') := by
  unfold BM.bind at h
  split at h
  · next a c'' e => exact ⟨a, c'', e, h⟩
  · simp at h
  · simp at h

theorem BM.bind_ctx {α β : Type} {x : BM α} {f : α → BM β} {c : Ctx}
    (hx : (x c).1 ≠ .panic → (x c).2 = c) (hf : ∀ a, (f a c).1 ≠ .panic → (f a c).2 = c)
    (h : ((x.bind f) c).1 ≠ .panic) : ((x.bind f) c).2 = c := by
  unfold BM.bind at *
  rcases hxc : x c with ⟨r, c'⟩
  rw [hxc] at h hx
  cases r with
  | ok a =>
    have := hx (by simp)
    simp only at this
    subst this
    exact hf a h
  | err => exact hx (by simp)
  | panic => simp at h

theorem check_tys : ∀ (l : List (Option Ty)) (ts : List Ty), BParams.check l = some ts →
    l.filterMap id = ts
  | [], ts, h => by simpa [BParams.check] using h
  | none :: _, _, h => by simp [BParams.check] at h
  | some t :: l, ts, h => by
    simp only [BParams.check, Option.map_eq_some_iff] at h
    obtain ⟨ts', h1, rfl⟩ := h
    simpa using check_tys l ts' h1

/-- the steps of a successful lambda build -/
theorem lambda_build_ok {env : BEnv} {params body ctx e ctx'}
    (h : BExp.build env (.lambda params body) ctx = (.ok e, ctx')) :
    ∃ p ts b c, params = some p ∧ p.nullability = NullabilityRequired ∧
      BParams.check p.types = some ts ∧ body ≠ .nil ∧
      BExp.build env body (ctx ++ [ts]) = (.ok b, c) ∧
      e = .lambda p.nullability p.variation ts b := by
  simp only [BExp.build] at h
  cases params with
  | none => simp at h
  | some p =>
    simp only at h
    by_cases hn : p.nullability = NullabilityRequired
    · simp only [hn, ne_eq, not_true_eq_false, if_false] at h
      cases hc : BParams.check p.types with
      | none => simp [hc] at h
      | some ts =>
        simp only [hc] at h
        by_cases hb : body.isNil = true
        · simp [hb] at h
        · simp only [hb, if_false, Bool.false_eq_true] at h
          rename' h => h2
          rcases hbd : BExp.build env body (ctx ++ [ts]) with ⟨r, c⟩
          rw [hbd] at h2
          cases r with
          | panic => simp at h2
          | err => simp only at h2; split at h2 <;> simp at h2
          | ok b =>
            simp only at h2
            split at h2
            · simp at h2
            · simp only [Res.ok_bind, Prod.mk.injEq, Res.ok.injEq] at h2
              exact ⟨p, ts, b, c, rfl, hn, hc, by rintro rfl; simp [BExp.isNil] at hb, hbd,
                by rw [hn]; exact h2.1.symm⟩
    · simp [hn] at h

mutual
theorem build_ctx (env : BEnv) : ∀ (b : BExp) (ctx : Ctx),
    (BExp.build env b ctx).1 ≠ .panic → (BExp.build env b ctx).2 = ctx
  | .nil, _, _ => rfl
  | .wrap _ _, _, _ => rfl
  | .cast _ _ b, ctx, h => by
    simp only [BExp.build] at *
    exact BM.bind_ctx (build_ctx env b ctx) (fun _ _ => rfl) h
  | .dynParam _ _, _, _ => rfl
  | .scalarFn _ args, ctx, h => by
    simp only [BExp.build] at *
    exact BM.bind_ctx (buildArgs_ctx env args ctx) (fun _ _ => rfl) h
  | .windowFn _ _ args _ ps, ctx, h => by
    simp only [BExp.build] at *
    exact BM.bind_ctx (buildArgs_ctx env args ctx)
      (fun _ h' => BM.bind_ctx (buildList_ctx env ps ctx) (fun _ _ => rfl) h') h
  | .ref _ _, _, _ => rfl
  | .lambdaParam _ _ _, _, _ => rfl
  | .lambda params body, ctx, h => by
    simp only [BExp.build] at *
    cases params with
    | none => rfl
    | some p =>
      simp only at *
      by_cases hn : p.nullability = NullabilityRequired
      · simp only [hn, ne_eq, not_true_eq_false, if_false] at *
        cases hc : BParams.check p.types with
        | none => simp [hc]
        | some ts =>
          simp only [hc] at *
          by_cases hb : body.isNil = true
          · simp [hb]
          · have ih := build_ctx env body (ctx ++ [ts])
            simp only [hb, if_false, Bool.false_eq_true] at h ⊢
            rcases hbd : BExp.build env body (ctx ++ [ts]) with ⟨r, c⟩
            rw [hbd] at h ih
            cases r with
            | panic => simp at h
            | err =>
              have := ih (by simp)
              simp only at this
              subst this
              simp
            | ok b =>
              have := ih (by simp)
              simp only at this
              subst this
              simp
      · simp [hn]
theorem buildArgs_ctx (env : BEnv) : ∀ (as : List BArg) (ctx : Ctx),
    (BArg.buildList env as ctx).1 ≠ .panic → (BArg.buildList env as ctx).2 = ctx
  | [], _, _ => rfl
  | .enum _ :: as, ctx, h => by
    simp only [BArg.buildList] at *
    exact BM.bind_ctx (buildArgs_ctx env as ctx) (fun _ _ => rfl) h
  | .expr b :: as, ctx, h => by
    simp only [BArg.buildList] at *
    exact BM.bind_ctx (build_ctx env b ctx)
      (fun _ h' => BM.bind_ctx (buildArgs_ctx env as ctx) (fun _ _ => rfl) h') h
theorem buildList_ctx (env : BEnv) : ∀ (bs : List BExp) (ctx : Ctx),
    (BExp.buildList env bs ctx).1 ≠ .panic → (BExp.buildList env bs ctx).2 = ctx
  | [], _, _ => rfl
  | b :: bs, ctx, h => by
    simp only [BExp.buildList] at *
    exact BM.bind_ctx (build_ctx env b ctx)
      (fun _ h' => BM.bind_ctx (buildList_ctx env bs ctx) (fun _ _ => rfl) h') h
end

theorem build_ok_ctx {env : BEnv} {b ctx e ctx'} (h : BExp.build env b ctx = (.ok e, ctx')) :
    ctx' = ctx := by
  have := build_ctx env b ctx (by simp [h])
  simpa [h] using this
theorem buildArgs_ok_ctx {env : BEnv} {b ctx e ctx'} (h : BArg.buildList env b ctx = (.ok e, ctx')) :
    ctx' = ctx := by
  have := buildArgs_ctx env b ctx (by simp [h])
  simpa [h] using this
theorem buildList_ok_ctx {env : BEnv} {b ctx e ctx'} (h : BExp.buildList env b ctx = (.ok e, ctx')) :
    ctx' = ctx := by
  have := buildList_ctx env b ctx (by simp [h])
  simpa [h] using this

theorem ctx_index (ctx : Ctx) (k : Nat) (h : k < ctx.length) :
    ∃ ps, Res.index ctx ((ctx.length : Int) - 1 - k) = .ok ps ∧ ctx.reverse[k]? = some ps := by
  refine ⟨ctx[ctx.length - 1 - k], ?_, ?_⟩
  · have : ((ctx.length : Int) - 1 - k) = ((ctx.length - 1 - k : Nat) : Int) := by omega
    rw [this, Res.index_nat _ _ (by omega)]
  · rw [List.getElem?_reverse h]
    exact List.getElem?_eq_getElem _

/-- resolution of a parameter reference -/
theorem lambdaParamType_spec (ctx : Ctx) (i : Int32) (c : Seg) (k : UInt32) (hk : c.KeysTyped) :
    lambdaParamType ctx i c k ≠ .panic ∧
    ∀ t, lambdaParamType ctx i c k = .ok t ↔ ParamHasType ctx.reverse k.toNat i c t := by
  unfold lambdaParamType
  by_cases h : ctx.length ≤ k.toNat
  · refine ⟨by simp [h], fun t => ?_⟩
    simp only [h, if_true, reduceCtorEq, false_iff]
    rintro ⟨ps, p, h1, _⟩
    have := (List.getElem?_eq_some_iff.1 h1).1
    simp at this
    omega
  · obtain ⟨ps, h1, h2⟩ := ctx_index ctx k.toNat (by omega)
    simp only [h, if_false, h1, Res.ok_bind]
    by_cases hl : (ps.length : Int) ≤ i.toInt
    · refine ⟨by simp [hl], fun t => ?_⟩
      simp only [hl, if_true, reduceCtorEq, false_iff]
      rintro ⟨ps', p, h3, h4, h5, _⟩
      rw [h2] at h3
      injection h3 with h3
      subst h3
      have := (List.getElem?_eq_some_iff.1 h5).1
      omega
    · simp only [hl, if_false]
      obtain ⟨g1, g2⟩ := C14_getType (.structField i c) (.struct NullabilityRequired 0 ps) (by simp) hk
      refine ⟨g2, fun t => ?_⟩
      rw [g1]
      constructor
      · intro w
        cases w with
        | step _ _ _ u _ s1 w2 =>
          cases s1 with
          | field n _ _ _ _ _ hi ht =>
            refine ⟨ps, u, h2, by omega, ?_, w2⟩
            rw [hi]; simpa using ht
      · rintro ⟨ps', p, h3, h4, h5, w⟩
        rw [h2] at h3
        injection h3 with h3
        subst h3
        exact .step _ _ _ p _ (.field i.toInt.toNat _ _ _ _ _ (by omega) h5) w

theorem reverse_push (ctx : Ctx) (ts : List Ty) : (ctx ++ [ts]).reverse = ts :: ctx.reverse := by
  simp

theorem newFieldRef_scoped {root ref schema e} (env : List (List Ty)) (hr : root.Scoped [])
    (h : newFieldRef root ref schema = .ok e) : e.Scoped env := by
  unfold newFieldRef at h
  cases ref with
  | nil => simp at h
  | mask _ => simp at h
  | seg s =>
    cases root with
    | rootReference =>
      cases schema with
      | none => simp at h
      | some ts =>
        obtain ⟨t, _, h⟩ := Res.bind_eq_ok.1 h
        injection h with h
        subst h
        simp [Expr.Scoped, ERoot.Scoped]
    | outer _ => simp at h
    | lambdaParam _ => simp at h
    | expr x =>
      replace h : (if x.isNil then Res.err else x.getType >>= fun rt => s.getType rt >>= fun t =>
        Res.ok (Expr.fieldRef (.expr x) (.seg s) (some t))) = .ok e := h
      split at h
      · simp at h
      obtain ⟨_, _, h⟩ := Res.bind_eq_ok.1 h
      obtain ⟨t, _, h⟩ := Res.bind_eq_ok.1 h
      injection h with h
      subst h
      simp only [Expr.Scoped, ERoot.Scoped, reduceCtorEq, false_implies, implies_true, and_true]
      exact scoped_weaken env x [] hr

mutual
theorem build_scoped (env : BEnv) : ∀ (b : BExp) (ctx : Ctx) (e : Expr) (ctx' : Ctx),
    b.ClosedParts → BExp.build env b ctx = (.ok e, ctx') →
    e.Scoped ctx.reverse ∧ b.RefsInScope ctx.reverse
  | .nil, _, _, _, _, h => by simp [BExp.build, BM.lift] at h
  | .wrap e0 f, ctx, e, _, hc, h => by
    cases f <;> simp [BExp.build, BM.lift] at h
    obtain ⟨rfl, _⟩ := h
    exact ⟨scoped_weaken ctx.reverse e0 [] hc, trivial⟩
  | .cast _ _ b, ctx, e, _, hc, h => by
    simp only [BExp.build] at h
    obtain ⟨x, c, h1, h2⟩ := BM.bind_ok h
    simp only [BM.lift, Prod.mk.injEq, Res.ok.injEq] at h2
    obtain ⟨rfl, _⟩ := h2
    exact build_scoped env b ctx x c hc h1
  | .dynParam ty _, _, _, _, _, h => by
    cases ty <;> simp [BExp.build, BM.lift] at h
    obtain ⟨rfl, _⟩ := h
    exact ⟨trivial, trivial⟩
  | .scalarFn _ args, ctx, e, _, hc, h => by
    simp only [BExp.build] at h
    obtain ⟨as, c, h1, h2⟩ := BM.bind_ok h
    simp only [BM.lift, Prod.mk.injEq] at h2
    obtain ⟨a, _, h3⟩ := Res.bind_eq_ok.1 h2.1
    injection h3 with h3
    subst h3
    exact buildArgs_scoped env args ctx as c hc h1
  | .windowFn _ w args ss ps, ctx, e, _, hc, h => by
    simp only [BExp.build] at h
    obtain ⟨as, c, h1, h2⟩ := BM.bind_ok h
    have := buildArgs_ok_ctx h1
    subst this
    obtain ⟨qs, c, h3, h4⟩ := BM.bind_ok h2
    simp only [BM.lift, Prod.mk.injEq] at h4
    obtain ⟨a, _, h5⟩ := Res.bind_eq_ok.1 h4.1
    split at h5
    · simp at h5
    · injection h5 with h5
      subst h5
      simp only [BExp.ClosedParts] at hc
      obtain ⟨i1, i2⟩ := buildArgs_scoped env args _ as _ hc.1 h1
      obtain ⟨j1, j2⟩ := buildList_scoped env ps _ qs _ hc.2.2 h3
      exact ⟨⟨i1, scopedSorts_weaken _ ss [] hc.2.1, j1⟩, i2, j2⟩
  | .ref root ref, ctx, e, _, hc, h => by
    simp only [BExp.build, BM.lift, Prod.mk.injEq] at h
    exact ⟨newFieldRef_scoped _ hc h.1, trivial⟩
  | .lambdaParam i c k, ctx, e, _, hc, h => by
    simp only [BExp.build, Prod.mk.injEq] at h
    obtain ⟨t, h1, h2⟩ := Res.bind_eq_ok.1 h.1
    injection h2 with h2
    subst h2
    have := ((lambdaParamType_spec ctx i c k hc).2 t).1 h1
    refine ⟨⟨trivial, fun k' hk' => ?_⟩, t, this⟩
    injection hk' with hk'
    subst hk'
    exact ⟨i, c, t, rfl, rfl, this⟩
  | .lambda params body, ctx, e, _, hc, h => by
    obtain ⟨p, ts, b, c, rfl, _, hts, _, hb, rfl⟩ := lambda_build_ok h
    obtain ⟨i1, i2⟩ := build_scoped env body _ b c hc hb
    rw [reverse_push] at i1 i2
    refine ⟨i1, ?_⟩
    simp only [BExp.RefsInScope, BParams.tys, check_tys _ _ hts]
    exact i2
theorem buildArgs_scoped (env : BEnv) : ∀ (as : List BArg) (ctx : Ctx) (es : List EArg) (ctx' : Ctx),
    BArg.ClosedPartsList as → BArg.buildList env as ctx = (.ok es, ctx') →
    EArg.ScopedList ctx.reverse es ∧ BArg.RefsInScopeList ctx.reverse as
  | [], _, _, _, _, h => by
    simp [BArg.buildList, BM.lift] at h
    obtain ⟨rfl, _⟩ := h
    exact ⟨trivial, trivial⟩
  | .enum s :: as, ctx, es, _, hc, h => by
    simp only [BArg.buildList] at h
    obtain ⟨x, c, h1, h2⟩ := BM.bind_ok h
    simp only [BM.lift, Prod.mk.injEq, Res.ok.injEq] at h2
    obtain ⟨rfl, _⟩ := h2
    exact buildArgs_scoped env as ctx x c hc h1
  | .expr b :: as, ctx, es, _, hc, h => by
    simp only [BArg.buildList] at h
    obtain ⟨x, c, h1, h2⟩ := BM.bind_ok h
    have := build_ok_ctx h1
    subst this
    obtain ⟨xs, c, h3, h4⟩ := BM.bind_ok h2
    simp only [BM.lift, Prod.mk.injEq, Res.ok.injEq] at h4
    obtain ⟨rfl, _⟩ := h4
    obtain ⟨i1, i2⟩ := build_scoped env b _ x _ hc.1 h1
    obtain ⟨j1, j2⟩ := buildArgs_scoped env as _ xs c hc.2 h3
    exact ⟨⟨i1, j1⟩, i2, j2⟩
theorem buildList_scoped (env : BEnv) : ∀ (bs : List BExp) (ctx : Ctx) (es : List Expr) (ctx' : Ctx),
    BExp.ClosedPartsList bs → BExp.buildList env bs ctx = (.ok es, ctx') →
    Expr.ScopedList ctx.reverse es ∧ BExp.RefsInScopeList ctx.reverse bs
  | [], _, _, _, _, h => by
    simp [BExp.buildList, BM.lift] at h
    obtain ⟨rfl, _⟩ := h
    exact ⟨trivial, trivial⟩
  | b :: bs, ctx, es, _, hc, h => by
    simp only [BExp.buildList] at h
    obtain ⟨x, c, h1, h2⟩ := BM.bind_ok h
    have := build_ok_ctx h1
    subst this
    obtain ⟨xs, c, h3, h4⟩ := BM.bind_ok h2
    simp only [BM.lift, Prod.mk.injEq, Res.ok.injEq] at h4
    obtain ⟨rfl, _⟩ := h4
    obtain ⟨i1, i2⟩ := build_scoped env b _ x _ hc.1 h1
    obtain ⟨j1, j2⟩ := buildList_scoped env bs _ xs c hc.2 h3
    exact ⟨⟨i1, j1⟩, i2, j2⟩
end

theorem newFieldRef_ne_panic (root : ERoot) (ref : ERef) (schema : Option (List Ty))
    (h : (BExp.ref root ref).Complete) : newFieldRef root ref schema ≠ .panic := by
  simp only [BExp.Complete] at h
  unfold newFieldRef
  cases ref with
  | nil => simp
  | mask _ => simp
  | seg s =>
    obtain ⟨hn, hk⟩ := h.1 s rfl
    cases root with
    | rootReference =>
      cases schema with
      | none => simp
      | some ts => exact Res.bind_ne_panic (C14_getType s _ hn hk).2 (by simp)
    | outer _ => simp
    | lambdaParam _ => simp
    | expr x =>
      obtain ⟨t, ht⟩ := h.2 x rfl
      simp only [ht, Res.ok_bind]
      split
      · simp
      exact Res.bind_ne_panic (C14_getType s _ hn hk).2 (by simp)

theorem BM.bind_ne_panic {α β : Type} {x : BM α} {f : α → BM β} {c : Ctx}
    (hx : (x c).1 ≠ .panic) (hf : ∀ a c', x c = (.ok a, c') → (f a c').1 ≠ .panic) :
    ((x.bind f) c).1 ≠ .panic := by
  unfold BM.bind
  rcases hxc : x c with ⟨r, c'⟩
  cases r with
  | ok a => exact hf a c' hxc
  | err => simp
  | panic => simp [hxc] at hx

mutual
theorem build_ne_panic (env : BEnv) (hs : ∀ i as, env.scalar i as ≠ .panic)
    (hw : ∀ i as, env.window i as ≠ .panic) : ∀ (b : BExp) (ctx : Ctx), b.Complete →
    (BExp.build env b ctx).1 ≠ .panic
  | .nil, _, h => by simp [BExp.Complete] at h
  | .wrap _ f, _, _ => by cases f <;> simp [BExp.build, BM.lift]
  | .cast _ _ b, ctx, h => by
    simp only [BExp.build]
    exact BM.bind_ne_panic (build_ne_panic env hs hw b ctx h) (by simp [BM.lift])
  | .dynParam ty _, _, _ => by cases ty <;> simp [BExp.build, BM.lift]
  | .scalarFn _ args, ctx, h => by
    simp only [BExp.build]
    refine BM.bind_ne_panic (buildArgs_ne_panic env hs hw args ctx h) (fun a c' _ => ?_)
    exact Res.bind_ne_panic (hs _ _) (by simp)
  | .windowFn _ w args ss ps, ctx, h => by
    simp only [BExp.build]
    refine BM.bind_ne_panic (buildArgs_ne_panic env hs hw args ctx h.1) (fun a c' _ => ?_)
    refine BM.bind_ne_panic (buildList_ne_panic env hs hw ps c' h.2) (fun a c' _ => ?_)
    refine Res.bind_ne_panic (hw _ _) (fun _ _ => ?_)
    split <;> simp
  | .ref root ref, ctx, h => by
    simp only [BExp.build, BM.lift]
    exact newFieldRef_ne_panic _ _ _ h
  | .lambdaParam i c k, ctx, h => by
    simp only [BExp.build]
    exact Res.bind_ne_panic (lambdaParamType_spec ctx i c k h).1 (by simp)
  | .lambda params body, ctx, h => by
    simp only [BExp.build]
    cases params with
    | none => simp
    | some p =>
      simp only
      split
      · simp
      · split
        · simp
        · next ts _ =>
          split
          · simp
          · next hb =>
            rcases h with rfl | h
            · simp [BExp.isNil] at hb
            · have hp := build_ne_panic env hs hw body (ctx ++ [ts]) h
              have hc := build_ctx env body (ctx ++ [ts]) hp
              rcases hbd : BExp.build env body (ctx ++ [ts]) with ⟨r, c⟩
              rw [hbd] at hp hc
              simp only at hc
              subst hc
              cases r <;> simp at hp ⊢
theorem buildArgs_ne_panic (env : BEnv) (hs : ∀ i as, env.scalar i as ≠ .panic)
    (hw : ∀ i as, env.window i as ≠ .panic) : ∀ (as : List BArg) (ctx : Ctx), BArg.CompleteList as →
    (BArg.buildList env as ctx).1 ≠ .panic
  | [], _, _ => by simp [BArg.buildList, BM.lift]
  | .enum _ :: as, ctx, h => by
    simp only [BArg.buildList]
    exact BM.bind_ne_panic (buildArgs_ne_panic env hs hw as ctx h) (by simp [BM.lift])
  | .expr b :: as, ctx, h => by
    simp only [BArg.buildList]
    refine BM.bind_ne_panic (build_ne_panic env hs hw b ctx h.1) (fun a c' _ => ?_)
    exact BM.bind_ne_panic (buildArgs_ne_panic env hs hw as c' h.2) (by simp [BM.lift])
theorem buildList_ne_panic (env : BEnv) (hs : ∀ i as, env.scalar i as ≠ .panic)
    (hw : ∀ i as, env.window i as ≠ .panic) : ∀ (bs : List BExp) (ctx : Ctx),
    BExp.CompleteList bs → (BExp.buildList env bs ctx).1 ≠ .panic
  | [], _, _ => by simp [BExp.buildList, BM.lift]
  | b :: bs, ctx, h => by
    simp only [BExp.buildList]
    refine BM.bind_ne_panic (build_ne_panic env hs hw b ctx h.1) (fun a c' _ => ?_)
    exact BM.bind_ne_panic (buildList_ne_panic env hs hw bs c' h.2) (by simp [BM.lift])
end

end Verif

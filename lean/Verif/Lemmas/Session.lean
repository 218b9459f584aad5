import Verif.Spec.Session
import Verif.Lemmas.ExprBuild
import Verif.Lemmas.PlanBuild
import Verif.Lemmas.Writable
import Verif.Lemmas.Collection
import Verif.Props.ExprBuild
/-!
# Lemmas on sessions with a plan builder
-/

namespace Verif

/-! ### Relations from better parts -/

theorem BuildCall.Uses.mono {ok ok' : Option (List Ty) → Expr → Prop} (h : ∀ base e, ok base e → ok' base e)
    {c : BuildCall} (hc : c.Uses ok) : c.Uses ok' := by
  cases c with
  | project i es =>
    intro x hx
    obtain ⟨ts, h1, h2⟩ := hc x hx
    exact ⟨ts, h1, fun e he => h _ _ (h2 e he)⟩
  | filter i e =>
    intro x hx
    obtain ⟨ts, h1, h2⟩ := hc x hx
    exact ⟨ts, h1, h _ _ h2⟩
  | join a b e p t =>
    intro x y hx hy
    obtain ⟨ls, h1, rs, h2, h3, h4⟩ := hc x y hx hy
    exact ⟨ls, h1, rs, h2, h _ _ h3, h4.imp id (h _ _)⟩
  | sort i ss =>
    intro x hx
    obtain ⟨ts, h1, h2⟩ := hc x hx
    exact ⟨ts, h1, fun e k he => ⟨h _ _ (h2 e k he).1, (h2 e k he).2⟩⟩
  | virt ns rows => exact fun row hr e he => ⟨h _ _ (hc row hr e he).1, (hc row hr e he).2⟩
  | cross _ _ => exact hc
  | fetch _ _ _ => exact hc
  | set _ _ => exact hc
  | scan _ _ => exact hc
  | write _ _ _ _ => exact hc
  | ctas _ _ _ => exact hc

theorem BuiltFrom.mono {ok ok' : Option (List Ty) → Expr → Prop} {okm okm' : Option (List Ty) → Measure → Prop}
    {okd okd' : ExtDef → Prop} (h1 : ∀ base e, ok base e → ok' base e)
    (h2 : ∀ base m, okm base m → okm' base m) (h3 : ∀ d, okd d → okd' d) {r : Rel}
    (h : BuiltFrom ok okm okd r) : BuiltFrom ok' okm' okd' r := by
  induction h with
  | call c m r h _ parts ih => exact .call c m r h ih (parts.mono h1)
  | empty ns ts r h parts => exact .empty ns ts r h parts
  | extTable d s r h parts => exact .extTable d s r h parts
  | iceberg uri sn s r h parts => exact .iceberg uri sn s r h parts
  | extSingle i d r h _ parts ih => exact .extSingle i d r h ih (h3 _ parts)
  | extLeaf d r h parts => exact .extLeaf d r h (h3 _ parts)
  | extMulti is d r h _ parts ih => exact .extMulti is d r h ih (h3 _ parts)
  | aggregate b i r h hi _ parts ih =>
    obtain ⟨ts, k1, k2, k3⟩ := parts
    exact .aggregate b i r h hi ih ⟨ts, k1, fun x hx => h1 _ _ (k2 x hx), fun m hm => h2 _ _ (k3 m hm)⟩
  | columns i ms cols r h _ parts ih =>
    obtain ⟨ts, k1, k3⟩ := parts
    exact .columns i ms cols r h ih ⟨ts, k1, fun m hm => h2 _ _ (k3 m hm)⟩
  | exprs i ms groups r h _ parts ih =>
    obtain ⟨ts, k1, k2, k3⟩ := parts
    exact .exprs i ms groups r h ih ⟨ts, k1, fun g hg x hx => h1 _ _ (k2 g hg x hx), fun m hm => h2 _ _ (k3 m hm)⟩

/-! ### What is described can be written -/

mutual
theorem describes_writable (reg : Reg) (c : Collection) (s : ExtSet) (schema : Option (List Ty)) :
    ∀ (b : XExp) (ctx : List (List Ty)) (e : Expr), b.Proper → b.Writable reg →
    b.CallTypes Ty.Writable e → b.Describes c s schema ctx e → e.Writable reg
  | .nil, ctx, e, hp, h, ht, hd => hd.elim
  | .wrap x failed, ctx, e, hp, h, ht, hd => by
    simp only [XExp.Describes] at hd
    obtain ⟨_, rfl⟩ := hd
    exact h
  | .cast ty fail input, ctx, e, hp, h, ht, hd => by
    simp only [XExp.Describes] at hd
    obtain ⟨i, rfl, hd⟩ := hd
    simp only [XExp.Writable, XExp.CallTypes, XExp.Proper] at h ht hp
    simp only [Expr.Writable]
    exact ⟨h.1, describes_writable reg c s schema input ctx i hp h.2 ht hd⟩
  | .dynParam ty ref, ctx, e, hp, h, ht, hd => by
    simp only [XExp.Describes] at hd
    obtain ⟨t, rfl, rfl⟩ := hd
    simp only [XExp.Writable] at h
    simp only [Expr.Writable]
    exact h t rfl
  | .scalarFn id opts args, ctx, e, hp, h, ht, hd => by
    simp only [XExp.Describes] at hd
    obtain ⟨a, as, v, rfl, _, hd, _⟩ := hd
    simp only [XExp.Writable, XExp.CallTypes, XExp.Proper] at h ht hp
    simp only [Expr.Writable]
    exact ⟨ht.1, args_writable reg c s schema args ctx as hp h ht.2 hd⟩
  | .windowFn id opts w args sorts parts, ctx, e, hp, h, ht, hd => by
    simp only [XExp.Describes] at hd
    obtain ⟨a, as, ps, v, rfl, _, hd1, hd2, _⟩ := hd
    simp only [XExp.Writable, XExp.CallTypes, XExp.Proper] at h ht hp
    simp only [Expr.Writable]
    exact ⟨ht.1, args_writable reg c s schema args ctx as hp.1 h.1 ht.2.1 hd1, h.2.1,
      list_writable reg c s schema parts ctx ps hp.2 h.2.2 ht.2.2 hd2⟩
  | .ref root ref, ctx, e, hp, h, ht, hd => by
    simp only [XExp.Describes] at hd
    obtain ⟨steps, t, rfl, rfl, hr⟩ := hd
    simp only [XExp.Writable, XExp.Proper] at h hp
    simp only [Expr.Writable, ERef.Writable]
    exact ⟨⟨(hp steps rfl).1, h.2 steps rfl⟩, h.1⟩
  | .lambdaParam field child steps, ctx, e, hp, h, ht, hd => by
    simp only [XExp.Describes] at hd
    obtain ⟨ps, t, _, _, rfl⟩ := hd
    simp only [XExp.Writable] at h
    simp only [Expr.Writable, ERef.Writable, Seg.KeysWritable, ERoot.Writable, and_true]
    exact ⟨by simp, h⟩
  | .lambda params body, ctx, e, hp, h, ht, hd => by
    simp only [XExp.Describes] at hd
    obtain ⟨p, ts, b, rfl, hn, hty, rfl, hd⟩ := hd
    simp only [XExp.Writable, XExp.CallTypes, XExp.Proper] at h ht hp
    simp only [Expr.Writable]
    refine ⟨(writableList_iff _).2 fun t hm => h.1 p rfl t ?_,
      describes_writable reg c s schema body _ b hp h.2 ht hd⟩
    rw [hty]
    exact List.mem_map.2 ⟨t, hm, rfl⟩
theorem args_writable (reg : Reg) (c : Collection) (s : ExtSet) (schema : Option (List Ty)) :
    ∀ (b : List XArg) (ctx : List (List Ty)) (e : List EArg), XArg.ProperList b → XArg.WritableList reg b →
    XArg.CallTypes Ty.Writable b e → XArg.DescribesList c s schema b ctx e → EArg.WritableList reg e
  | [], ctx, e, hp, h, ht, hd => by
    simp only [XArg.DescribesList] at hd
    subst hd
    simp only [EArg.WritableList]
  | .enum v :: as, ctx, e, hp, h, ht, hd => by
    simp only [XArg.DescribesList] at hd
    obtain ⟨es, rfl, hd⟩ := hd
    simp only [EArg.WritableList, EArg.Writable, true_and]
    exact args_writable reg c s schema as ctx es hp h ht hd
  | .expr b :: as, ctx, e, hp, h, ht, hd => by
    simp only [XArg.DescribesList] at hd
    obtain ⟨x, es, rfl, hd1, hd2⟩ := hd
    simp only [EArg.WritableList, EArg.Writable]
    exact ⟨describes_writable reg c s schema b ctx x hp.2.1 h.1 ht.1 hd1,
      args_writable reg c s schema as ctx es hp.2.2 h.2 ht.2 hd2⟩
theorem list_writable (reg : Reg) (c : Collection) (s : ExtSet) (schema : Option (List Ty)) :
    ∀ (b : List XExp) (ctx : List (List Ty)) (e : List Expr), XExp.ProperList b → XExp.WritableList reg b →
    XExp.CallTypesList Ty.Writable b e → XExp.DescribesList c s schema b ctx e → Expr.WritableList reg e
  | [], ctx, e, hp, h, ht, hd => by
    simp only [XExp.DescribesList] at hd
    subst hd
    simp only [Expr.WritableList]
  | b :: as, ctx, e, hp, h, ht, hd => by
    simp only [XExp.DescribesList] at hd
    obtain ⟨x, es, rfl, hd1, hd2⟩ := hd
    simp only [Expr.WritableList]
    exact ⟨describes_writable reg c s schema b ctx x hp.1 h.1 ht.1 hd1,
      list_writable reg c s schema as ctx es hp.2 h.2 ht.2 hd2⟩
end

mutual
theorem callTypes_mono {ok ok' : Ty → Prop} (h : ∀ t, ok t → ok' t) : ∀ (b : XExp) (e : Expr),
    b.CallTypes ok e → b.CallTypes ok' e
  | .cast _ _ input, e, ht => by
    cases e <;> simp only [XExp.CallTypes] at ht ⊢
    exact callTypes_mono h input _ ht
  | .scalarFn _ _ args, e, ht => by
    cases e <;> simp only [XExp.CallTypes] at ht ⊢
    exact ⟨h _ ht.1, callArgs_mono h args _ ht.2⟩
  | .windowFn _ _ _ args _ parts, e, ht => by
    cases e <;> simp only [XExp.CallTypes] at ht ⊢
    exact ⟨h _ ht.1, callArgs_mono h args _ ht.2.1, callList_mono h parts _ ht.2.2⟩
  | .lambda _ body, e, ht => by
    cases e <;> simp only [XExp.CallTypes] at ht ⊢
    exact callTypes_mono h body _ ht
  | .nil, e, _ => by simp only [XExp.CallTypes]
  | .wrap .., e, _ => by simp only [XExp.CallTypes]
  | .dynParam .., e, _ => by simp only [XExp.CallTypes]
  | .ref .., e, _ => by simp only [XExp.CallTypes]
  | .lambdaParam .., e, _ => by simp only [XExp.CallTypes]
theorem callArgs_mono {ok ok' : Ty → Prop} (h : ∀ t, ok t → ok' t) : ∀ (b : List XArg) (e : List EArg),
    XArg.CallTypes ok b e → XArg.CallTypes ok' b e
  | [], e, _ => by simp only [XArg.CallTypes]
  | .enum _ :: as, [], _ => by simp only [XArg.CallTypes]
  | .enum _ :: as, _ :: es, ht => by
    simp only [XArg.CallTypes] at ht ⊢
    exact callArgs_mono h as es ht
  | .expr b :: as, [], _ => by simp only [XArg.CallTypes]
  | .expr b :: as, e :: es, ht => by
    cases e <;> simp only [XArg.CallTypes] at ht ⊢
    exact ⟨callTypes_mono h b _ ht.1, callArgs_mono h as es ht.2⟩
theorem callList_mono {ok ok' : Ty → Prop} (h : ∀ t, ok t → ok' t) : ∀ (b : List XExp) (e : List Expr),
    XExp.CallTypesList ok b e → XExp.CallTypesList ok' b e
  | [], e, _ => by simp only [XExp.CallTypesList]
  | b :: bs, [], _ => by simp only [XExp.CallTypesList]
  | b :: bs, e :: es, ht => by
    simp only [XExp.CallTypesList] at ht ⊢
    exact ⟨callTypes_mono h b e ht.1, callList_mono h bs es ht.2⟩
end

/-! ### Carrying in a set that grew -/

theorem expr_writable_set (rest : Reg) (c : Collection) (s s' : ExtSet) (e : Expr) :
    e.Writable (Reg.ofSet rest c s') ↔ e.Writable (Reg.ofSet rest c s) := by
  rw [← expr_writes, expr_reg (reg := Reg.ofSet rest c s') (reg' := Reg.ofSet rest c s) rfl rfl, expr_writes]

theorem args_writable_set (rest : Reg) (c : Collection) (s s' : ExtSet) (es : List EArg) :
    EArg.WritableList (Reg.ofSet rest c s') es ↔ EArg.WritableList (Reg.ofSet rest c s) es := by
  rw [← args_write, args_reg (reg := Reg.ofSet rest c s') (reg' := Reg.ofSet rest c s) rfl rfl, args_write]

theorem sorts_writable_set (rest : Reg) (c : Collection) (s s' : ExtSet) (es : List ESort) :
    ESort.WritableList (Reg.ofSet rest c s') es ↔ ESort.WritableList (Reg.ofSet rest c s) es := by
  rw [← sorts_write, sorts_reg (reg := Reg.ofSet rest c s') (reg' := Reg.ofSet rest c s) rfl rfl, sorts_write]

theorem carried_within {rest : Reg} {c : Collection} {s s' : ExtSet} (hc : s.Compact) (hs : s.Small)
    (hg : s.Grows s') {base : Option (List Ty)} {e : Expr} (h : e.Carried (Reg.ofSet rest c s) base) :
    e.Carried (Reg.ofSet rest c s') base := by
  refine ⟨expr_within (ofSet_within rest c hc hs hg) base e h.1, ?_⟩
  exact (expr_writable_set rest c s s' e).2 h.2

theorem agg_within {rest : Reg} {c : Collection} {s s' : ExtSet} (hc : s.Compact) (hs : s.Small)
    (hg : s.Grows s') {f : AggFn} (h : f.DeclaredIn (Reg.ofSet rest c s)) :
    f.DeclaredIn (Reg.ofSet rest c s') := by
  obtain ⟨id, h1, h2⟩ := h
  replace h1 : s.decode .func f.a.funcRef = some id := h1
  have h1' := hg.1 _ _ _ h1
  have hl : s'.declarationOf c .aggregate f.a.funcRef = s.declarationOf c .aggregate f.a.funcRef := by
    simp only [ExtSet.declarationOf, ExtSet.lookupFunc, h1, h1']
  refine ⟨id, h1', ?_⟩
  rcases h2 with h2 | ⟨h2, ⟨name, h3⟩, h4⟩
  · exact .inl (hl.trans h2)
  · refine .inr ⟨hl.trans h2, ⟨name, ?_⟩, h4⟩
    simp only [Reg.ofSet, ExtSet.customCall, Res.bind_eq_ok] at h3 ⊢
    obtain ⟨⟨r, s1⟩, ⟨v, hv, id', hid, ⟨x, s2⟩, hx, e⟩, e'⟩ := h3
    cases e
    simp only [Res.ok.injEq, Prod.mk.injEq] at e'
    obtain ⟨rfl, e'⟩ := e'
    cases hn : s.anchor .func id' with
    | some y =>
      rw [getAnchor_old _ _ _ _ hn] at hx
      cases hx
      exact ⟨_, ⟨v, hv, id', hid, _, getAnchor_old _ _ _ _ (hg.2 _ _ _ hn), rfl⟩, by rw [← e']⟩
    | none =>
      obtain ⟨z, s3, e, _, _, hd, _⟩ := getAnchor_new s .func id' hc hn (hs.1 _) (fun _ => hs.2)
      rw [e] at hx
      cases hx
      rw [hd] at h1
      cases h1

theorem measure_within {rest : Reg} {c : Collection} {s s' : ExtSet} (hc : s.Compact) (hs : s.Small)
    (hg : s.Grows s') {base : Option (List Ty)} {m : Measure} (h : m.Carried (Reg.ofSet rest c s) base) :
    m.Carried (Reg.ofSet rest c s') base := by
  have hw := ofSet_within rest c hc hs hg
  obtain ⟨⟨⟨f, h1, h2, h3, h4, h5⟩, h6⟩, ⟨f', k1, k2, k3, k4, k5⟩⟩ := h
  rw [h1] at k1
  cases k1
  refine ⟨⟨⟨f, h1, agg_within hc hs hg h2, h3, args_within hw base _ h4, sorts_within hw base _ h5⟩,
    h6.imp id (expr_within hw base _)⟩, ⟨f, h1, k2, ?_, ?_, ?_⟩⟩
  · exact (args_writable_set rest c s s' _).2 k3
  · exact (sorts_writable_set rest c s s' _).2 k4
  · by_cases hn : m.filter = .nil
    · rw [hn]; simp only [Expr.WritableOpt]
    · rw [← opt_writes, opt_eq _ hn, expr_reg (reg := Reg.ofSet rest c s') (reg' := Reg.ofSet rest c s) rfl rfl, ← opt_eq _ hn,
        opt_writes]
      exact k5

/-! ### What is in the set -/

/-- Anchors for functions and types only, of loaded extensions. -/
def ExtSet.Known (c : Collection) (s : ExtSet) : Prop :=
  s.count .variation = 0 ∧ ∀ a u, s.urns.get a = some u → c.urnLoaded u = true

theorem getAnchor_known {c : Collection} {s s' : ExtSet} {k : ExtKind} {id : ExtId} {a : UInt32}
    (hk : k ≠ .variation) (hu : c.urnLoaded id.urn = true) (h : s.getAnchor k id = .ok (a, s'))
    (hs : s.Known c) : s'.Known c := by
  cases hg : s.anchor k id with
  | some b =>
    rw [getAnchor_old s k id b hg] at h
    cases h
    exact hs
  | none =>
    have hn : (s.table k).byId.get id = none := hg
    simp only [ExtSet.getAnchor, hn] at h
    split at h
    · rename_i m hm
      simp only [Res.ok.injEq, Prod.mk.injEq] at h
      obtain ⟨-, rfl⟩ := h
      refine ⟨?_, ?_⟩
      · rw [← hs.1]
        simp only [ExtSet.count, table_withTable, if_neg hk.symm]
        cases k <;> first | exact absurd rfl hk | rfl
      · intro b u hb
        have hb : m.get b = some u := by simpa using hb
        unfold addOrGetURN at hm
        split at hm
        · cases hm
          exact hs.2 b u hb
        · simp only at hm
          split at hm
          · cases hm
          · cases hm
            rw [GoMap.get_set] at hb
            split at hb
            · cases hb
              exact hu
            · exact hs.2 b u hb
    · cases h

theorem funcs_loaded {c : Collection} (hc : c.Reachable) {k : FuncKind} {urn n : String} {v : Variant}
    (h : (c.funcs k).get ⟨urn, n⟩ = some v) : c.urnLoaded urn = true := by
  by_contra hu
  rw [((reachable_tidy hc) urn (by simpa using hu)).1 k n] at h
  cases h

theorem resolveVariant_known {c : Collection} (hc : c.Reachable) {k : FuncKind} {s s1 s2 : ExtSet} {id : ExtId}
    {args : List EArg} {v : Variant} {out : Ty} {opts : List (String × List String)} {a : FnAttrs}
    (h : resolveVariant c k s id args = .ok (v, out, s1)) (h' : callOf v s1 opts out = .ok (a, s2))
    (hs : s.Known c) : s2.Known c := by
  simp only [resolveVariant, Res.bind_eq_ok] at h
  obtain ⟨ts, hts, w, hw, ⟨o, s4⟩, hr, e⟩ := h
  simp only [Res.ok.injEq, Prod.mk.injEq] at e
  obtain ⟨rfl, rfl, rfl⟩ := e
  obtain ⟨n, hn, hf, _, _⟩ := findVariant_sorted (reachable_sorted hc) hw
  have hu := funcs_loaded hc hf
  have h1 : s4.Known c := by
    obtain ⟨_, _, _, _, ⟨_, _, h, _⟩ | ⟨rfl, _⟩⟩ := resolveType_cases hr
    · exact getAnchor_known (by simp) hu h hs
    · exact hs
  simp only [callOf, Res.bind_eq_ok] at h'
  obtain ⟨id, hid, r, hr, e⟩ := h'
  cases e
  have : id.urn = w.urn := by
    simp only [Variant.id, hn, Res.ok_bind, Res.ok.injEq] at hid
    rw [← hid]
  exact getAnchor_known (by simp) (by rw [this]; exact hu) hr h1

mutual
theorem build_known {c : Collection} (hc : c.Reachable) (schema : Option (List Ty)) : ∀ (b : XExp) (ctx : Ctx)
    (s s' : ExtSet) (e : Expr), XExp.build c schema b ctx s = .ok (e, s') → s.Known c → s'.Known c
  | .nil, ctx, s, s', e, h, hs => by cases h
  | .wrap x failed, ctx, s, s', e, h, hs => by
    simp only [XExp.build] at h
    split at h <;> cases h
    exact hs
  | .cast ty fail input, ctx, s, s', e, h, hs => by
    simp only [XExp.build, Res.bind_eq_ok] at h
    obtain ⟨⟨i, s1⟩, h1, h⟩ := h
    cases h
    exact build_known hc schema input ctx s _ i h1 hs
  | .dynParam ty ref, ctx, s, s', e, h, hs => by
    cases ty <;> cases h
    exact hs
  | .scalarFn id opts args, ctx, s, s', e, h, hs => by
    simp only [XExp.build, newScalarFunc, Res.bind_eq_ok] at h
    obtain ⟨⟨as, s1⟩, h1, ⟨v, out, s2⟩, h2, ⟨a, s3⟩, h3, h⟩ := h
    cases h
    exact resolveVariant_known hc h2 h3 (args_known hc schema args ctx s s1 as h1 hs)
  | .windowFn id opts w args sorts parts, ctx, s, s', e, h, hs => by
    simp only [XExp.build, newWindowFunc, Res.bind_eq_ok] at h
    obtain ⟨⟨as, s1⟩, h1, ⟨ps, s2⟩, h2, ⟨f, s3⟩, ⟨⟨v, out, s4⟩, h3, h4⟩, f', h5, h⟩ := h
    cases h
    simp only at h4
    split at h4
    · cases h4
    simp only [Res.bind_eq_ok] at h4
    obtain ⟨⟨a, s5⟩, h4, h⟩ := h4
    cases h
    exact resolveVariant_known hc h3 h4
      (list_known hc schema parts ctx s1 s2 ps h2 (args_known hc schema args ctx s s1 as h1 hs))
  | .ref root ref, ctx, s, s', e, h, hs => by
    simp only [XExp.build, Res.bind_eq_ok] at h
    obtain ⟨_, _, h⟩ := h
    cases h
    exact hs
  | .lambdaParam field child steps, ctx, s, s', e, h, hs => by
    simp only [XExp.build, Res.bind_eq_ok] at h
    obtain ⟨_, _, h⟩ := h
    cases h
    exact hs
  | .lambda params body, ctx, s, s', e, h, hs => by
    simp only [XExp.build] at h
    split at h
    · cases h
    split at h
    · cases h
    split at h
    · cases h
    split at h
    · cases h
    simp only [Res.bind_eq_ok] at h
    obtain ⟨⟨i, s1⟩, h1, h⟩ := h
    cases h
    exact build_known hc schema body _ s _ i h1 hs
theorem args_known {c : Collection} (hc : c.Reachable) (schema : Option (List Ty)) : ∀ (b : List XArg) (ctx : Ctx)
    (s s' : ExtSet) (e : List EArg), XArg.buildList c schema b ctx s = .ok (e, s') → s.Known c → s'.Known c
  | [], ctx, s, s', e, h, hs => by cases h; exact hs
  | .enum v :: as, ctx, s, s', e, h, hs => by
    simp only [XArg.buildList, Res.bind_eq_ok] at h
    obtain ⟨⟨i, s1⟩, h1, h⟩ := h
    cases h
    exact args_known hc schema as ctx s _ i h1 hs
  | .expr b :: as, ctx, s, s', e, h, hs => by
    simp only [XArg.buildList, Res.bind_eq_ok] at h
    obtain ⟨⟨i, s1⟩, h1, ⟨es, s2⟩, h2, h⟩ := h
    cases h
    exact args_known hc schema as ctx s1 _ es h2 (build_known hc schema b ctx s s1 i h1 hs)
theorem list_known {c : Collection} (hc : c.Reachable) (schema : Option (List Ty)) : ∀ (b : List XExp) (ctx : Ctx)
    (s s' : ExtSet) (e : List Expr), XExp.buildList c schema b ctx s = .ok (e, s') → s.Known c → s'.Known c
  | [], ctx, s, s', e, h, hs => by cases h; exact hs
  | b :: as, ctx, s, s', e, h, hs => by
    simp only [XExp.buildList, Res.bind_eq_ok] at h
    obtain ⟨⟨i, s1⟩, h1, ⟨es, s2⟩, h2, h⟩ := h
    cases h
    exact list_known hc schema as ctx s1 _ es h2 (build_known hc schema b ctx s s1 i h1 hs)
end

/-! ### Invariant of a session -/

/-- The set is in order, and everything made so far can be carried with it. -/
structure SessionState.Sound (rest : RelReg) (c : Collection) (m : SessionState) : Prop where
  tidy : m.set.Tidy
  compact : m.set.Compact
  known : m.set.Known c
  exprs : ∀ base e, (base, e) ∈ m.exprs → e.Carried (rest.ofSet c m.set).toReg base
  measures : ∀ base x, (base, x) ∈ m.measures → x.Carried (rest.ofSet c m.set).toReg base

theorem SessionState.Sound.grow {rest : RelReg} {c : Collection} {m : SessionState} {s' : ExtSet}
    (h : m.Sound rest c) (ha : m.set.Advances s') (hk : s'.Known c) (hs : s'.Small) :
    SessionState.Sound rest c { m with set := s' } := by
  obtain ⟨h1, h2, h3⟩ := ha.2.2 h.tidy h.compact hs
  have hsm := hs.earlier ha
  exact ⟨h1, h2, hk, fun base e he => carried_within h.compact hsm h3 (h.exprs base e he),
    fun base x hx => measure_within h.compact hsm h3 (h.measures base x hx)⟩

theorem typeRef_anchor {s s' : ExtSet} {urn name : String} {ps : List TParam} {t : Ty}
    (h : userDefinedType s urn name ps = .ok (t, s')) :
    ∃ a, s.getAnchor .type ⟨urn, name⟩ = .ok (a, s') ∧ t = .udt NullabilityNullable 0 a ps := by
  simp only [userDefinedType, Res.bind_eq_ok] at h
  obtain ⟨⟨a, s1⟩, h1, h⟩ := h
  cases h
  exact ⟨a, h1, rfl⟩

theorem agg_advances {c : Collection} {schema : Option (List Ty)} {b : XAgg} {s s' : ExtSet} {f : AggFn}
    (h : b.build c schema s = .ok (f, s')) : s.Advances s' := by
  simp only [XAgg.build, newAggregateFunc, Res.bind_eq_ok] at h
  obtain ⟨⟨as, s1⟩, h1, ⟨v, out, s2⟩, h2, ⟨a, s3⟩, h3, h⟩ := h
  cases h
  exact ((args_advance c schema b.args [] s s1 as h1).trans (resolveVariant_advances h2)).trans
    (callOf_advances h3)

theorem agg_known {c : Collection} (hc : c.Reachable) {schema : Option (List Ty)} {b : XAgg} {s s' : ExtSet}
    {f : AggFn} (h : b.build c schema s = .ok (f, s')) (hs : s.Known c) : s'.Known c := by
  simp only [XAgg.build, newAggregateFunc, Res.bind_eq_ok] at h
  obtain ⟨⟨as, s1⟩, h1, ⟨v, out, s2⟩, h2, ⟨a, s3⟩, h3, h⟩ := h
  cases h
  exact resolveVariant_known hc h2 h3 (args_known hc schema b.args [] s s1 as h1 hs)

theorem new_known (c : Collection) : ExtSet.new.Known c := by
  refine ⟨rfl, fun a u h => ?_⟩
  simp [ExtSet.new] at h

theorem session_sound {rest : RelReg} {c : Collection} (hc : c.Reachable) {m : SessionState}
    (h : Session rest c m) (hs : m.set.Small) : m.Sound rest c := by
  induction h with
  | start => exact ⟨new_tidy, new_compact, new_known c, by simp, by simp⟩
  | given m schema e hm he ih =>
    obtain ⟨h1, h2, h3, h4, h5⟩ := ih hs
    refine ⟨h1, h2, h3, ?_, h5⟩
    intro base x hx
    rcases List.mem_cons.1 hx with hx | hx
    · cases hx; exact he
    · exact h4 base x hx
  | expr m schema b e s' hm hb hp hsend hw ht ih =>
    have ha := build_advances c schema b [] m.set s' e hb
    have hsm := ExtSet.Small.earlier ha hs
    have hi := ih hsm
    have hg := hi.grow ha (build_known hc schema b [] _ _ e hb hi.known) hs
    obtain ⟨_, _, g⟩ := ha.2.2 hi.tidy hi.compact hs
    refine ⟨hg.tidy, hg.compact, hg.known, ?_, hg.measures⟩
    intro base x hx
    rcases List.mem_cons.1 hx with hx | hx
    · cases hx
      have hd := C109_built_partial c m.set s' schema b e hc hp hi.tidy hi.compact hs hb
      refine ⟨describes_sendable rest.toReg c s' schema b [] e
        (xexp_within (ofSet_within rest.toReg c hi.compact hsm g) schema b hsend)
        (callTypes_mono (fun _ h => h.1) b e ht) hd, ?_⟩
      have hwr := describes_writable _ c s' schema b [] e hp hw (callTypes_mono (fun _ h => h.2) b e ht) hd
      exact (expr_writable_set rest.toReg c m.set s' e).2 hwr
    · exact hg.exprs base x hx
  | measure m schema b f s' filter hm hb hp hsend hw hsorts ht hout hf ih =>
    have ha := agg_advances hb
    have hsm := ExtSet.Small.earlier ha hs
    have hi := ih hsm
    have hg := hi.grow ha (agg_known hc hb hi.known) hs
    obtain ⟨_, _, g⟩ := ha.2.2 hi.tidy hi.compact hs
    refine ⟨hg.tidy, hg.compact, hg.known, hg.exprs, ?_⟩
    intro base x hx
    rcases List.mem_cons.1 hx with hx | hx
    · cases hx
      obtain ⟨_, _, e3, _, hd, v, hcall⟩ := C109_aggregate_partial c m.set s' schema b f hc hp hi.tidy hi.compact hs hb
      have hcs := carriedSorts (ss := f.sorts) (reg := (rest.ofSet c s').toReg) (base := schema) (by
        rw [e3]
        exact fun e k he => ⟨hg.exprs _ _ (hsorts e k he).1, (hsorts e k he).2⟩)
      have hfc := carriedOpt (reg := (rest.ofSet c s').toReg) (base := schema) (e := filter)
        (hf.imp id (hg.exprs _ _))
      refine ⟨⟨⟨f, rfl, ?_, hout.1, ?_, hcs.1⟩, hfc.1⟩, ⟨f, rfl, hout.2, ?_, hcs.2, hfc.2⟩⟩
      · refine ⟨⟨v.urn, f.a.declaration⟩, hcall.reference, .inl ?_⟩
        show s'.declarationOf c .aggregate f.a.funcRef = _
        simp only [ExtSet.declarationOf, ExtSet.lookupFunc, hcall.reference, hcall.registered, hcall.compound]
      · exact args_sendable rest.toReg c s' schema b.args [] f.args
          (xargs_within (ofSet_within rest.toReg c hi.compact hsm g) schema _ hsend)
          (callArgs_mono (fun _ h => h.1) _ _ ht) hd
      · have hwr := args_writable _ c s' schema b.args [] f.args hp hw (callArgs_mono (fun _ h => h.2) _ _ ht) hd
        exact (args_writable_set rest.toReg c m.set s' _).2 hwr
    · exact hg.measures base x hx
  | funcRef m urn key a s' hm hu h ih =>
    have ha := getAnchor_advances h
    have hi := ih (ExtSet.Small.earlier ha hs)
    exact hi.grow ha (getAnchor_known (by simp) hu h hi.known) hs
  | typeRef m urn name ps t s' hm hu h ih =>
    obtain ⟨a, h, -⟩ := typeRef_anchor h
    have ha := getAnchor_advances h
    have hi := ih (ExtSet.Small.earlier ha hs)
    exact hi.grow ha (getAnchor_known (by simp) hu h hi.known) hs

end Verif

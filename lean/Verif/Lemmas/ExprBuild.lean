import Verif.Spec.ExprBuild
import Verif.Lemmas.FuncCall
import Verif.Lemmas.ExtSet
import Verif.Props.FieldRef
/-!
# Lemmas about building expressions
-/

namespace Verif

/-! ### Growing sets -/

theorem ExtSet.Grows.refl (s : ExtSet) : s.Grows s := ⟨fun _ _ _ h => h, fun _ _ _ h => h⟩

theorem ExtSet.Grows.trans {s t u : ExtSet} (h : s.Grows t) (h' : t.Grows u) : s.Grows u :=
  ⟨fun k a id hh => h'.1 _ _ _ (h.1 k a id hh), fun k id a hh => h'.2 _ _ _ (h.2 k id a hh)⟩

/-- A step from a set to a later one: nothing is removed and, as long as anchors do not run out,
nothing is overwritten. -/
def ExtSet.Advances (s s' : ExtSet) : Prop :=
  (∀ k, s.count k ≤ s'.count k) ∧ s.urns.len ≤ s'.urns.len ∧
  (s.Tidy → s.Compact → s'.Small → s'.Tidy ∧ s'.Compact ∧ s.Grows s')

theorem ExtSet.Advances.refl (s : ExtSet) : s.Advances s :=
  ⟨fun _ => Nat.le_refl _, Nat.le_refl _, fun h1 h2 _ => ⟨h1, h2, .refl s⟩⟩

theorem ExtSet.Small.earlier {s s' : ExtSet} (h : s.Advances s') (hs : s'.Small) : s.Small :=
  ⟨fun k => by have := h.1 k; have := hs.1 k; omega, by have := h.2.1; have := hs.2; omega⟩

theorem ExtSet.Advances.trans {s t u : ExtSet} (h : s.Advances t) (h' : t.Advances u) :
    s.Advances u := by
  refine ⟨fun k => Nat.le_trans (h.1 k) (h'.1 k), Nat.le_trans h.2.1 h'.2.1, fun h1 h2 h3 => ?_⟩
  obtain ⟨g1, g2, g3⟩ := h.2.2 h1 h2 (h3.earlier h')
  obtain ⟨g4, g5, g6⟩ := h'.2.2 g1 g2 h3
  exact ⟨g4, g5, g3.trans g6⟩

theorem addOrGetURN_len {m m' : GoMap UInt32 String} {u : String} (h : addOrGetURN m u = .ok m') :
    m.len ≤ m'.len ∧ ((∀ b, m.get b ≠ some u) → m'.len = m.len + 1) := by
  unfold addOrGetURN at h
  split at h
  · cases h
    rename_i hu
    refine ⟨Nat.le_refl _, fun hh => ?_⟩
    simp only [List.any_eq_true, decide_eq_true_eq] at hu
    obtain ⟨⟨a, v⟩, h1, rfl⟩ := hu
    exact absurd ((m.get_eq_some _ _).2 h1) (hh a)
  · simp only at h
    split at h
    · cases h
    · rename_i hn
      cases h
      rw [GoMap.len_set_new _ _ _ hn]
      exact ⟨Nat.le_succ _, fun _ => rfl⟩

theorem getAnchor_advances {s s' : ExtSet} {k : ExtKind} {id : ExtId} {a : UInt32}
    (h : s.getAnchor k id = .ok (a, s')) : s.Advances s' := by
  cases hg : s.anchor k id with
  | some b =>
    rw [getAnchor_old s k id b hg] at h
    cases h
    exact .refl s
  | none =>
    have hn : (s.table k).byId.get id = none := hg
    obtain ⟨m, hm, hs⟩ : ∃ m, addOrGetURN s.urns id.urn = .ok m ∧
        s' = { s with urns := m }.withTable k
          ((s.table k).encode (UInt32.ofNat (s.table k).byId.len + 1) id) := by
      simp only [ExtSet.getAnchor, hn] at h
      split at h
      · rename_i m hm
        simp only [Res.ok.injEq, Prod.mk.injEq] at h
        exact ⟨m, hm, h.2.symm⟩
      · cases h
    have hcount : ∀ k', s'.count k' = if k' = k then s.count k' + 1 else s.count k' := by
      intro k'
      rw [hs]
      simp only [ExtSet.count, table_withTable]
      split
      · next e => subst e; simp [IdTable.encode, GoMap.len_set_new _ _ _ hn]
      · simp
    have hurns : s'.urns = m := by rw [hs]; simp
    obtain ⟨hl1, hl2⟩ := addOrGetURN_len hm
    refine ⟨fun k' => by rw [hcount]; split <;> omega, by rw [hurns]; exact hl1, fun ht hc hsm => ?_⟩
    have b1 := hsm.1 k
    rw [hcount, if_pos rfl] at b1
    have b2 := hsm.2
    rw [hurns] at b2
    obtain ⟨a', s1, e, _, hc', hd, hdec, hanc, _, hu1, hu2, hu3, hu4, _⟩ :=
      getAnchor_new s k id hc hg (by omega) (fun h' => by have := hl2 h'; omega)
    rw [e] at h
    cases h
    refine ⟨⟨?_, hu3 ht.2.1, ?_⟩, hc', ?_, ?_⟩
    · intro k' a' i
      rw [hdec, hanc]
      by_cases hk : k' = k
      · subst hk
        by_cases e1 : a' = a <;> by_cases e2 : i = id
        · simp [e1, e2]
        · simp only [e1, e2, and_true, and_false, if_true, if_false]
          constructor
          · intro h'; injection h' with h'; exact absurd h'.symm e2
          · intro h'; rw [← ht.1, hd] at h'; cases h'
        · simp only [e1, e2, and_true, and_false, if_true, if_false]
          constructor
          · intro h'; rw [ht.1, hg] at h'; cases h'
          · intro h'; injection h' with h'; exact absurd h'.symm e1
        · simpa [e1, e2] using ht.1 k' a' i
      · simpa [hk] using ht.1 k' a' i
    · intro k' a' i h'
      rw [hdec] at h'
      split at h'
      · injection h' with h'; subst h'; exact hu2
      · obtain ⟨u, hu⟩ := ht.2.2 _ _ _ h'
        exact ⟨u, hu1 _ _ hu⟩
    · intro k' a' i h'
      rw [hdec]
      split
      · next e => rw [e.1, e.2, hd] at h'; cases h'
      · exact h'
    · intro k' i b h'
      rw [hanc]
      split
      · next e => rw [e.1, e.2, hg] at h'; cases h'
      · exact h'

theorem resolveType_advances {v : Variant} {s s1 : ExtSet} {ts : List Ty} {out : Ty}
    (h : v.resolveType s ts = .ok (out, s1)) : s.Advances s1 := by
  obtain ⟨_, _, _, _, ⟨_, _, h, _⟩ | ⟨rfl, _⟩⟩ := resolveType_cases h
  · exact getAnchor_advances h
  · exact .refl _

theorem resolveVariant_advances {c : Collection} {k : FuncKind} {s s1 : ExtSet} {id : ExtId}
    {args : List EArg} {v : Variant} {out : Ty}
    (h : resolveVariant c k s id args = .ok (v, out, s1)) : s.Advances s1 := by
  simp only [resolveVariant, Res.bind_eq_ok] at h
  obtain ⟨ts, hts, w, hw, ⟨o, s2⟩, hr, e⟩ := h
  cases e
  exact resolveType_advances hr

theorem callOf_advances {v : Variant} {s s' : ExtSet} {opts : List (String × List String)} {out : Ty}
    {a : FnAttrs} (h : callOf v s opts out = .ok (a, s')) : s.Advances s' := by
  simp only [callOf, Res.bind_eq_ok] at h
  obtain ⟨id, _, r, hr, e⟩ := h
  cases e
  exact getAnchor_advances hr

/-- a resolved call stays one in any set that grows from the one afterwards -/
theorem calls_later {c : Collection} (hc : c.Sorted) {k : FuncKind} {s s1 s2 s3 : ExtSet} (ht : s.Tidy)
    {id : ExtId} {args : List EArg} (ha : ∀ a ∈ args, a.IsValue) {v : Variant} {out : Ty}
    {opts : List (String × List String)} {a : FnAttrs}
    (h : resolveVariant c k s id args = .ok (v, out, s1)) (h' : callOf v s1 opts out = .ok (a, s2))
    (hg : s2.Grows s3) : CallsImpl c k s3 id args a v := by
  obtain ⟨hcall, _⟩ := calls_of hc ht ha h h'
  obtain ⟨g1, g2, g3, g4, g5, _⟩ := hcall
  refine ⟨g1, g2, g3, g4, hg.1 _ _ _ g5, ?_⟩
  simp only [resolveVariant, Res.bind_eq_ok] at h
  obtain ⟨ts, hts, w, hw, r, hr, e⟩ := h
  simp only [Res.ok.injEq, Prod.mk.injEq] at e
  obtain ⟨rfl, e1, e2⟩ := e
  replace hr : w.resolveType s ts = .ok (out, s1) := by rw [hr, ← e1, ← e2]
  clear e1 e2
  obtain ⟨ret, o, hret, he, hcase⟩ := resolveType_cases hr
  refine ⟨ts, ret, callTypes_typed hts ha, hret, evaluate_matches he, ?_⟩
  rw [evaluate_anchor (fun _ => 0) (fun n => (s3.anchor .type ⟨w.urn, n⟩).getD 0) he]
  simp only [callOf, Res.bind_eq_ok] at h'
  obtain ⟨i, _, b, hb, e⟩ := h'
  cases e
  rcases hcase with ⟨name, r, hr, hout⟩ | ⟨rfl, hout⟩
  · rw [hout]
    obtain ⟨_, q, _⟩ := getAnchor_refers (fun a id h => (ht.1 _ _ _).2 h) hr
    have hb' : b.2.anchor .type ⟨w.urn, name⟩ = s1.anchor .type ⟨w.urn, name⟩ := by
      obtain ⟨b1, b2⟩ := b
      cases hn : s1.anchor .func i with
      | some x => rw [getAnchor_old _ _ _ _ hn] at hb; cases hb; rfl
      | none =>
        have hn' : (s1.table .func).byId.get i = none := hn
        simp only [ExtSet.getAnchor, hn'] at hb
        split at hb
        · simp only [Res.ok.injEq, Prod.mk.injEq] at hb
          rw [← hb.2]
          rfl
        · cases hb
    rw [hg.2 _ _ _ (hb'.trans q), Option.getD_some]
  · rw [hout]

/-! ### What building does to the set -/

mutual
theorem build_advances (c : Collection) (schema : Option (List Ty)) : ∀ (b : XExp) (ctx : Ctx)
    (s s' : ExtSet) (e : Expr), XExp.build c schema b ctx s = .ok (e, s') → s.Advances s'
  | .nil, ctx, s, s', e, h => by cases h
  | .wrap x failed, ctx, s, s', e, h => by
    simp only [XExp.build] at h
    split at h <;> cases h
    exact .refl _
  | .cast ty fail input, ctx, s, s', e, h => by
    simp only [XExp.build, Res.bind_eq_ok] at h
    obtain ⟨⟨i, s1⟩, h1, h⟩ := h
    cases h
    exact build_advances c schema input ctx s _ i h1
  | .dynParam ty ref, ctx, s, s', e, h => by
    cases ty <;> cases h
    exact .refl _
  | .scalarFn id opts args, ctx, s, s', e, h => by
    simp only [XExp.build, newScalarFunc, Res.bind_eq_ok] at h
    obtain ⟨⟨as, s1⟩, h1, ⟨v, out, s2⟩, h2, ⟨a, s3⟩, h3, h⟩ := h
    cases h
    exact ((args_advance c schema args ctx s s1 as h1).trans (resolveVariant_advances h2)).trans
      (callOf_advances h3)
  | .windowFn id opts w args sorts parts, ctx, s, s', e, h => by
    simp only [XExp.build, newWindowFunc, Res.bind_eq_ok] at h
    obtain ⟨⟨as, s1⟩, h1, ⟨ps, s2⟩, h2, ⟨f, s3⟩, ⟨⟨v, out, s4⟩, h3, h4⟩, f', h5, h⟩ := h
    cases h
    simp only at h4
    split at h4
    · cases h4
    simp only [Res.bind_eq_ok] at h4
    obtain ⟨⟨a, s5⟩, h4, h⟩ := h4
    cases h
    exact (((args_advance c schema args ctx s s1 as h1).trans
      (list_advances c schema parts ctx s1 s2 ps h2)).trans (resolveVariant_advances h3)).trans
      (callOf_advances h4)
  | .ref root ref, ctx, s, s', e, h => by
    simp only [XExp.build, Res.bind_eq_ok] at h
    obtain ⟨_, _, h⟩ := h
    cases h
    exact .refl _
  | .lambdaParam field child steps, ctx, s, s', e, h => by
    simp only [XExp.build, Res.bind_eq_ok] at h
    obtain ⟨_, _, h⟩ := h
    cases h
    exact .refl _
  | .lambda params body, ctx, s, s', e, h => by
    simp only [XExp.build] at h
    split at h
    · cases h
    split at h
    · cases h
    split at h
    · cases h
    split at h
    · cases h
    simp only [Res.bind_eq_ok] at h
    obtain ⟨⟨i, s1⟩, h1, h⟩ := h
    cases h
    exact build_advances c schema body _ s _ i h1
theorem args_advance (c : Collection) (schema : Option (List Ty)) : ∀ (b : List XArg) (ctx : Ctx)
    (s s' : ExtSet) (e : List EArg), XArg.buildList c schema b ctx s = .ok (e, s') → s.Advances s'
  | [], ctx, s, s', e, h => by cases h; exact .refl _
  | .enum v :: as, ctx, s, s', e, h => by
    simp only [XArg.buildList, Res.bind_eq_ok] at h
    obtain ⟨⟨i, s1⟩, h1, h⟩ := h
    cases h
    exact args_advance c schema as ctx s _ i h1
  | .expr b :: as, ctx, s, s', e, h => by
    simp only [XArg.buildList, Res.bind_eq_ok] at h
    obtain ⟨⟨i, s1⟩, h1, ⟨es, s2⟩, h2, h⟩ := h
    cases h
    exact (build_advances c schema b ctx s s1 i h1).trans (args_advance c schema as ctx s1 _ es h2)
theorem list_advances (c : Collection) (schema : Option (List Ty)) : ∀ (b : List XExp) (ctx : Ctx)
    (s s' : ExtSet) (e : List Expr), XExp.buildList c schema b ctx s = .ok (e, s') → s.Advances s'
  | [], ctx, s, s', e, h => by cases h; exact .refl _
  | b :: as, ctx, s, s', e, h => by
    simp only [XExp.buildList, Res.bind_eq_ok] at h
    obtain ⟨⟨i, s1⟩, h1, ⟨es, s2⟩, h2, h⟩ := h
    cases h
    exact (build_advances c schema b ctx s s1 i h1).trans (list_advances c schema as ctx s1 _ es h2)
end

/-! ### What is built -/

theorem check_types : ∀ {l : List (Option Ty)} {ts : List Ty}, BParams.check l = some ts →
    l = ts.map some
  | [], ts, h => by cases h; rfl
  | none :: _, ts, h => by cases h
  | some t :: l, ts, h => by
    simp only [BParams.check, Option.map_eq_some_iff] at h
    obtain ⟨us, h1, rfl⟩ := h
    rw [check_types h1]
    rfl

theorem types_check : ∀ (ts : List Ty), BParams.check (ts.map some) = some ts
  | [] => rfl
  | t :: ts => by simp [BParams.check, types_check ts]

theorem newFieldRef_recorded {root : ERoot} {ref : ERef} {schema : Option (List Ty)} {e : Expr}
    (hp : ∀ s, ref = .seg s → s ≠ .nil ∧ s.KeysTyped) :
    newFieldRef root ref schema = .ok e ↔
      ∃ steps t, ref = .seg steps ∧ e = .fieldRef root ref (some t) ∧
        Recorded schema root steps (some t) := by
  cases ref with
  | nil => simp [newFieldRef]
  | mask m => simp [newFieldRef]
  | seg s =>
    obtain ⟨hn, hk⟩ := hp s rfl
    cases root with
    | rootReference =>
      cases schema with
      | none => simp [newFieldRef, Recorded]
      | some ts =>
        simp only [newFieldRef, Res.bind_eq_ok, (C14_getType s _ hn hk).1, Recorded]
        constructor
        · rintro ⟨t, h, e⟩
          cases e
          exact ⟨s, t, rfl, rfl, t, h, rfl⟩
        · rintro ⟨s', t, e, rfl, u, h, e'⟩
          cases e
          cases e'
          exact ⟨t, h, rfl⟩
    | expr x =>
      have hx : newFieldRef (.expr x) (.seg s) schema = .ok e ↔
          (x.getType >>= fun rt => s.getType rt >>= fun t => Res.ok (Expr.fieldRef (.expr x) (.seg s) (some t))) =
            .ok e := by
        cases x <;> simp [newFieldRef, Expr.isNil, Expr.getType]
      simp only [hx, Res.bind_eq_ok, (C14_getType s _ hn hk).1, Recorded]
      constructor
      · rintro ⟨u, hu, t, h, e⟩
        cases e
        exact ⟨s, t, rfl, rfl, u, t, hu, h, rfl⟩
      · rintro ⟨s', t, e, rfl, u, t', hu, h, e'⟩
        cases e
        cases e'
        exact ⟨u, hu, t, h, rfl⟩
    | outer n => simp [newFieldRef, Recorded]
    | lambdaParam n => simp [newFieldRef, Recorded]

theorem lambdaParam_walk {ctx : Ctx} {field : Int32} {child : Seg} {steps : UInt32} {t : Ty}
    (hk : child.KeysTyped) : lambdaParamType ctx field child steps = .ok t ↔
      ∃ ps, ctx.reverse[steps.toNat]? = some ps ∧
        Walk (Seg.structField field child).steps (.struct NullabilityRequired 0 ps) t := by
  have hw := fun ps => (C14_getType (.structField field child) (.struct NullabilityRequired 0 ps)
    (by simp) hk).1 t
  unfold lambdaParamType
  split
  · rename_i hl
    constructor
    · intro h; cases h
    · rintro ⟨ps, h, _⟩
      have := (List.getElem?_eq_some_iff.1 h).1
      simp at this
      omega
  · rename_i hl
    have hlt : ctx.length - 1 - steps.toNat < ctx.length := by omega
    have hidx : ((ctx.length : Int) - 1 - steps.toNat) = ((ctx.length - 1 - steps.toNat : Nat) : Int) := by
      omega
    rw [hidx, Res.index_nat ctx _ hlt, Res.ok_bind,
      List.getElem?_reverse (by omega), List.getElem?_eq_getElem hlt]
    simp only [Option.some.injEq, ← hw, exists_eq_left']
    split
    · rename_i hf
      constructor
      · intro h; cases h
      · intro h
        simp only [Seg.getType] at h
        rw [if_pos (.inr hf)] at h
        cases h
    · rfl

/-- only a nil expression that is wrapped is built as nil -/
theorem built_nil {c : Collection} {schema : Option (List Ty)} {b : XExp} {ctx : Ctx} {s s' : ExtSet}
    (h : XExp.build c schema b ctx s = .ok (.nil, s')) : b = .wrap .nil false := by
  cases b with
  | nil => cases h
  | wrap x failed =>
    simp only [XExp.build] at h
    split at h <;> cases h
    rename_i hf
    cases failed
    · rfl
    · exact absurd rfl hf
  | cast ty fail input =>
    simp only [XExp.build, Res.bind_eq_ok] at h
    obtain ⟨_, _, h⟩ := h
    cases h
  | dynParam ty ref => cases ty <;> cases h
  | scalarFn id opts args =>
    simp only [XExp.build, newScalarFunc, Res.bind_eq_ok] at h
    obtain ⟨_, _, _, _, _, _, h⟩ := h
    cases h
  | windowFn id opts w args sorts parts =>
    simp only [XExp.build, Res.bind_eq_ok] at h
    obtain ⟨_, _, _, _, ⟨f, s1⟩, _, f', h, e⟩ := h
    cases e
    cases f <;> simp only [finishWindow] at h <;> try cases h
    split at h <;> cases h
  | ref root ref =>
    simp only [XExp.build, Res.bind_eq_ok] at h
    obtain ⟨e', h, h'⟩ := h
    cases h'
    cases ref with
    | nil => cases h
    | mask m => cases h
    | seg sg =>
      cases root with
      | rootReference =>
        cases schema with
        | none => cases h
        | some ts =>
          simp only [newFieldRef, Res.bind_eq_ok] at h
          obtain ⟨_, _, h⟩ := h
          cases h
      | expr x =>
        simp only [newFieldRef] at h
        split at h
        · cases h
        simp only [Res.bind_eq_ok] at h
        obtain ⟨_, _, _, _, h⟩ := h
        cases h
      | outer n => cases h
      | lambdaParam n => cases h
  | lambdaParam field child steps =>
    simp only [XExp.build, Res.bind_eq_ok] at h
    obtain ⟨_, _, h⟩ := h
    cases h
  | lambda params body =>
    simp only [XExp.build] at h
    split at h
    · cases h
    split at h
    · cases h
    split at h
    · cases h
    split at h
    · cases h
    simp only [Res.bind_eq_ok] at h
    obtain ⟨_, _, h⟩ := h
    cases h

theorem ofExpr_of {e : Expr} (h : e ≠ .nil) : EArg.ofExpr e = .expr e := by
  cases e <;> first | rfl | exact absurd rfl h

mutual
theorem build_describes (c : Collection) (hc : c.Reachable) (schema : Option (List Ty)) :
    ∀ (b : XExp) (ctx : Ctx) (s s' t : ExtSet) (e : Expr), b.Proper → s.Tidy → s.Compact → s'.Small →
    s'.Grows t → XExp.build c schema b ctx s = .ok (e, s') → b.Describes c t schema ctx.reverse e
  | .nil, ctx, s, s', t, e, hp, h1, h2, h3, h4, h => by cases h
  | .wrap x failed, ctx, s, s', t, e, hp, h1, h2, h3, h4, h => by
    simp only [XExp.build] at h
    split at h <;> cases h
    rename_i hf
    exact ⟨by simpa using hf, rfl⟩
  | .cast ty fail input, ctx, s, s', t, e, hp, h1, h2, h3, h4, h => by
    simp only [XExp.build, Res.bind_eq_ok] at h
    obtain ⟨⟨i, s1⟩, g1, h⟩ := h
    cases h
    exact ⟨i, rfl, build_describes c hc schema input ctx s _ t i hp h1 h2 h3 h4 g1⟩
  | .dynParam ty ref, ctx, s, s', t, e, hp, h1, h2, h3, h4, h => by
    cases ty <;> cases h
    exact ⟨_, rfl, rfl⟩
  | .scalarFn id opts args, ctx, s, s', t, e, hp, h1, h2, h3, h4, h => by
    simp only [XExp.build, newScalarFunc, Res.bind_eq_ok] at h
    obtain ⟨⟨as, s1⟩, g1, ⟨v, out, s2⟩, g2, ⟨a, s3⟩, g3, h⟩ := h
    cases h
    have a1 := args_advance c schema args ctx s s1 as g1
    have a2 := resolveVariant_advances g2
    have a3 := callOf_advances g3
    have hs1 := h3.earlier (a2.trans a3)
    obtain ⟨t1, c1, w1⟩ := a1.2.2 h1 h2 hs1
    obtain ⟨_, _, w2⟩ := (a2.trans a3).2.2 t1 c1 h3
    obtain ⟨d1, d2⟩ := args_describe c hc schema args ctx s s1 t as hp h1 h2 hs1 (w2.trans h4) g1
    exact ⟨a, as, v, rfl, (calls_of (reachable_sorted hc) t1 d2 g2 g3).2, d1,
      calls_later (reachable_sorted hc) t1 d2 g2 g3 h4⟩
  | .windowFn id opts w args sorts parts, ctx, s, s', t, e, hp, h1, h2, h3, h4, h => by
    simp only [XExp.build, newWindowFunc, Res.bind_eq_ok] at h
    obtain ⟨⟨as, s1⟩, g1, ⟨ps, s2⟩, g2, ⟨f, s3⟩, ⟨⟨v, out, s4⟩, g3, g4⟩, f', g5, h⟩ := h
    cases h
    simp only at g4
    split at g4
    · cases g4
    rename_i hph
    simp only [Res.bind_eq_ok] at g4
    obtain ⟨⟨a, s5⟩, g4, h⟩ := g4
    cases h
    simp only [finishWindow] at g5
    split at g5
    · cases g5
    rename_i hr
    cases g5
    have a1 := args_advance c schema args ctx s s1 as g1
    have a2 := list_advances c schema parts ctx s1 s2 ps g2
    have a3 := (resolveVariant_advances g3).trans (callOf_advances g4)
    have hs2 := h3.earlier a3
    have hs1 := hs2.earlier a2
    obtain ⟨t1, c1, w1⟩ := a1.2.2 h1 h2 hs1
    obtain ⟨t2, c2, w2⟩ := a2.2.2 t1 c1 hs2
    obtain ⟨_, _, w3⟩ := a3.2.2 t2 c2 h3
    obtain ⟨d1, d2⟩ := args_describe c hc schema args ctx s s1 t as hp.1 h1 h2 hs1
      ((w2.trans w3).trans h4) g1
    refine ⟨a, as, ps, v, rfl, (calls_of (reachable_sorted hc) t2 d2 g3 g4).2, d1,
      list_describes c hc schema parts ctx s1 s2 t ps hp.2 t1 c1 hs2 (w3.trans h4) g2,
      calls_later (reachable_sorted hc) t2 d2 g3 g4 h4, fun hb => ?_, fun hd => ?_⟩
    · by_contra hne
      exact hr ⟨hb, hne⟩
    · by_contra hne
      exact hph (by simp [hd, hne])
  | .ref root ref, ctx, s, s', t, e, hp, h1, h2, h3, h4, h => by
    simp only [XExp.build, Res.bind_eq_ok] at h
    obtain ⟨e', h, h'⟩ := h
    cases h'
    exact (newFieldRef_recorded hp).1 h
  | .lambdaParam field child steps, ctx, s, s', t, e, hp, h1, h2, h3, h4, h => by
    simp only [XExp.build, Res.bind_eq_ok] at h
    obtain ⟨u, h, h'⟩ := h
    cases h'
    obtain ⟨ps, g1, g2⟩ := (lambdaParam_walk hp).1 h
    exact ⟨ps, u, g1, g2, rfl⟩
  | .lambda params body, ctx, s, s', t, e, hp, h1, h2, h3, h4, h => by
    simp only [XExp.build] at h
    split at h
    · cases h
    rename_i p
    split at h
    · cases h
    rename_i hn
    split at h
    · cases h
    rename_i ts hts
    split at h
    · cases h
    simp only [Res.bind_eq_ok] at h
    obtain ⟨⟨i, s1⟩, g1, h⟩ := h
    cases h
    have hn' : p.nullability = NullabilityRequired := by simpa using hn
    refine ⟨p, ts, i, rfl, hn', check_types hts, by rw [hn'], ?_⟩
    have := build_describes c hc schema body _ s _ t i hp h1 h2 h3 h4 g1
    simpa using this
theorem args_describe (c : Collection) (hc : c.Reachable) (schema : Option (List Ty)) :
    ∀ (b : List XArg) (ctx : Ctx) (s s' t : ExtSet) (e : List EArg), XArg.ProperList b → s.Tidy →
    s.Compact → s'.Small → s'.Grows t → XArg.buildList c schema b ctx s = .ok (e, s') →
    XArg.DescribesList c t schema b ctx.reverse e ∧ ∀ a ∈ e, a.IsValue
  | [], ctx, s, s', t, e, hp, h1, h2, h3, h4, h => by cases h; exact ⟨rfl, by simp⟩
  | .enum v :: as, ctx, s, s', t, e, hp, h1, h2, h3, h4, h => by
    simp only [XArg.buildList, Res.bind_eq_ok] at h
    obtain ⟨⟨i, s1⟩, g1, h⟩ := h
    cases h
    obtain ⟨d1, d2⟩ := args_describe c hc schema as ctx s _ t i hp h1 h2 h3 h4 g1
    exact ⟨⟨i, rfl, d1⟩, List.forall_mem_cons.2 ⟨.enum, d2⟩⟩
  | .expr b :: as, ctx, s, s', t, e, hp, h1, h2, h3, h4, h => by
    simp only [XArg.buildList, Res.bind_eq_ok] at h
    obtain ⟨⟨i, s1⟩, g1, ⟨es, s2⟩, g2, h⟩ := h
    cases h
    have a1 := build_advances c schema b ctx s s1 i g1
    have a2 := args_advance c schema as ctx s1 _ es g2
    have hs1 := h3.earlier a2
    obtain ⟨t1, c1, w1⟩ := a1.2.2 h1 h2 hs1
    obtain ⟨_, _, w2⟩ := a2.2.2 t1 c1 h3
    have hne : i ≠ .nil := by
      rintro rfl
      exact hp.1 _ (built_nil g1)
    obtain ⟨d1, d2⟩ := args_describe c hc schema as ctx s1 _ t es hp.2.2 t1 c1 h3 h4 g2
    rw [ofExpr_of hne]
    exact ⟨⟨i, es, rfl, build_describes c hc schema b ctx s s1 t i hp.2.1 h1 h2 hs1 (w2.trans h4) g1,
      d1⟩, List.forall_mem_cons.2 ⟨.expr, d2⟩⟩
theorem list_describes (c : Collection) (hc : c.Reachable) (schema : Option (List Ty)) :
    ∀ (b : List XExp) (ctx : Ctx) (s s' t : ExtSet) (e : List Expr), XExp.ProperList b → s.Tidy →
    s.Compact → s'.Small → s'.Grows t → XExp.buildList c schema b ctx s = .ok (e, s') →
    XExp.DescribesList c t schema b ctx.reverse e
  | [], ctx, s, s', t, e, hp, h1, h2, h3, h4, h => by cases h; rfl
  | b :: as, ctx, s, s', t, e, hp, h1, h2, h3, h4, h => by
    simp only [XExp.buildList, Res.bind_eq_ok] at h
    obtain ⟨⟨i, s1⟩, g1, ⟨es, s2⟩, g2, h⟩ := h
    cases h
    have a1 := build_advances c schema b ctx s s1 i g1
    have a2 := list_advances c schema as ctx s1 _ es g2
    have hs1 := h3.earlier a2
    obtain ⟨t1, c1, w1⟩ := a1.2.2 h1 h2 hs1
    obtain ⟨_, _, w2⟩ := a2.2.2 t1 c1 h3
    exact ⟨i, es, rfl, build_describes c hc schema b ctx s s1 t i hp.1 h1 h2 hs1 (w2.trans h4) g1,
      list_describes c hc schema as ctx s1 _ t es hp.2 t1 c1 h3 h4 g2⟩
end

/-! ### What can be carried stays so -/

/-- Whatever `reg` can carry, `reg'` can carry. -/
structure Reg.Within (reg reg' : Reg) : Prop where
  scalar : ∀ a, DeclaredIn reg reg.scalar a → DeclaredIn reg' reg'.scalar a
  window : ∀ a, DeclaredIn reg reg.window a → DeclaredIn reg' reg'.window a
  rel : ∀ r : RelRef, r.Survives reg → r.Survives reg'

section
variable {reg reg' : Reg} (hw : reg.Within reg') (base : Option (List Ty))
include hw

mutual
theorem expr_within : ∀ (e : Expr), e.Sendable reg base → e.Sendable reg' base
  | .nil, h => by simp only [Expr.Sendable] at h
  | .lit l, h => by simpa only [Expr.Sendable] using h
  | .fieldRef root ref known, h => by
    simp only [Expr.Sendable] at h ⊢
    exact ⟨root_within root h.1, h.2⟩
  | .ifThen ifs els, h => by
    simp only [Expr.Sendable] at h ⊢
    exact ⟨pairs_within ifs h.1, expr_within els h.2⟩
  | .cast ty input _, h => by
    simp only [Expr.Sendable] at h ⊢
    exact ⟨h.1, expr_within input h.2⟩
  | .dynParam ty _, h => by simpa only [Expr.Sendable] using h
  | .switch m ifs els, h => by
    simp only [Expr.Sendable] at h ⊢
    exact ⟨expr_within m h.1, cases_within ifs h.2.1, expr_within els h.2.2⟩
  | .singularOr v os, h => by
    simp only [Expr.Sendable] at h ⊢
    exact ⟨expr_within v h.1, list_within os h.2⟩
  | .multiOr v os, h => by
    simp only [Expr.Sendable] at h ⊢
    exact ⟨list_within v h.1, rows_within os h.2⟩
  | .mapE _ _ kvs, h => by
    simp only [Expr.Sendable] at h ⊢
    exact ⟨h.1, pairs_within kvs h.2⟩
  | .structE _ _ fs, h => by
    simp only [Expr.Sendable] at h ⊢
    exact list_within fs h
  | .listE _ _ vs, h => by
    simp only [Expr.Sendable] at h ⊢
    exact ⟨h.1, list_within vs h.2⟩
  | .scalar a args, h => by
    simp only [Expr.Sendable] at h ⊢
    exact ⟨hw.scalar a h.1, h.2.1, args_within args h.2.2⟩
  | .window a _ args sorts parts, h => by
    simp only [Expr.Sendable] at h ⊢
    exact ⟨hw.window a h.1, h.2.1, args_within args h.2.2.1, sorts_within sorts h.2.2.2.1,
      list_within parts h.2.2.2.2⟩
  | .lambda n _ ps body, h => by
    simp only [Expr.Sendable] at h ⊢
    exact ⟨h.1, h.2.1, expr_within body h.2.2⟩
  | .scalarSubquery r, h => by
    simp only [Expr.Sendable] at h ⊢
    exact hw.rel r h
  | .inPredicate ns r, h => by
    simp only [Expr.Sendable] at h ⊢
    exact ⟨list_within ns h.1, hw.rel r h.2⟩
  | .setPredicate _ r, h => by
    simp only [Expr.Sendable] at h ⊢
    exact hw.rel r h
  | .setComparison _ _ l r, h => by
    simp only [Expr.Sendable] at h ⊢
    refine ⟨expr_within l h.1, ?_⟩
    cases r with
    | none => exact h.2
    | some r => exact hw.rel r h.2
theorem list_within : ∀ (es : List Expr), Expr.SendableList reg base es →
    Expr.SendableList reg' base es
  | [], _ => trivial
  | e :: es, h => ⟨expr_within e h.1, list_within es h.2⟩
theorem pairs_within : ∀ (es : List EPair), EPair.SendableList reg base es →
    EPair.SendableList reg' base es
  | [], _ => trivial
  | .mk a b :: es, h => ⟨expr_within a h.1, expr_within b h.2.1, pairs_within es h.2.2⟩
theorem cases_within : ∀ (es : List ECase), ECase.SendableList reg base es →
    ECase.SendableList reg' base es
  | [], _ => trivial
  | .mk l e :: es, h => ⟨h.1, expr_within e h.2.1, cases_within es h.2.2⟩
theorem rows_within : ∀ (es : List ERow), ERow.SendableList reg base es →
    ERow.SendableList reg' base es
  | [], _ => trivial
  | .mk e :: es, h => ⟨list_within e h.1, rows_within es h.2⟩
theorem root_within : ∀ (r : ERoot), r.Sendable reg base → r.Sendable reg' base
  | .expr e, h => expr_within e h
  | .rootReference, _ => trivial
  | .outer _, _ => trivial
  | .lambdaParam _, _ => trivial
theorem arg_within : ∀ (a : EArg), a.Sendable reg base → a.Sendable reg' base
  | .nil, h => h
  | .expr e, h => expr_within e h
  | .type _, h => h
  | .enum _, h => h
theorem args_within : ∀ (as : List EArg), EArg.SendableList reg base as → EArg.SendableList reg' base as
  | [], _ => trivial
  | a :: as, h => ⟨arg_within a h.1, args_within as h.2⟩
theorem sorts_within : ∀ (es : List ESort), ESort.SendableList reg base es →
    ESort.SendableList reg' base es
  | [], _ => trivial
  | .mk e k :: es, h => ⟨expr_within e h.1, h.2.1, sorts_within es h.2.2⟩
end

mutual
theorem xexp_within : ∀ (b : XExp), b.Sendable reg base → b.Sendable reg' base
  | .nil, h => h
  | .wrap e _, h => by
    simp only [XExp.Sendable] at h ⊢
    exact expr_within hw base e h
  | .cast ty _ input, h => by
    simp only [XExp.Sendable] at h ⊢
    exact ⟨h.1, xexp_within input h.2⟩
  | .dynParam ty _, h => by simpa only [XExp.Sendable] using h
  | .scalarFn _ _ args, h => by
    simp only [XExp.Sendable] at h ⊢
    exact xargs_within args h
  | .windowFn _ _ _ args sorts parts, h => by
    simp only [XExp.Sendable] at h ⊢
    exact ⟨xargs_within args h.1, sorts_within hw base sorts h.2.1, xlist_within parts h.2.2⟩
  | .ref root ref, h => by
    simp only [XExp.Sendable] at h ⊢
    exact ⟨root_within hw base root h.1, h.2⟩
  | .lambdaParam .., h => by simp only [XExp.Sendable] at h
  | .lambda params body, h => by
    simp only [XExp.Sendable] at h ⊢
    exact ⟨h.1, xexp_within body h.2⟩
theorem xargs_within : ∀ (as : List XArg), XArg.SendableList reg base as →
    XArg.SendableList reg' base as
  | [], _ => trivial
  | .enum _ :: as, h => xargs_within as h
  | .expr b :: as, h => ⟨xexp_within b h.1, xargs_within as h.2⟩
theorem xlist_within : ∀ (as : List XExp), XExp.SendableList reg base as →
    XExp.SendableList reg' base as
  | [], _ => trivial
  | b :: bs, h => ⟨xexp_within b h.1, xlist_within bs h.2⟩
end
end

/-- the registry of a set that grew -/
theorem ofSet_within (rest : Reg) (c : Collection) {s s' : ExtSet} (hc : s.Compact) (hs : s.Small)
    (hg : s.Grows s') : (Reg.ofSet rest c s).Within (Reg.ofSet rest c s') := by
  have key : ∀ k a, DeclaredIn (Reg.ofSet rest c s) (s.declarationOf c k) a →
      DeclaredIn (Reg.ofSet rest c s') (s'.declarationOf c k) a := by
    rintro k a ⟨id, h1, h2⟩
    replace h1 : s.decode .func a.funcRef = some id := h1
    have h1' := hg.1 _ _ _ h1
    have hl : s'.declarationOf c k a.funcRef = s.declarationOf c k a.funcRef := by
      simp only [ExtSet.declarationOf, ExtSet.lookupFunc, h1, h1']
    refine ⟨id, h1', ?_⟩
    rcases h2 with h2 | ⟨h2, h3⟩
    · exact .inl (hl.trans h2)
    · refine .inr ⟨hl.trans h2, ?_⟩
      simp only [Reg.ofSet, ExtSet.customCall, Res.bind_eq_ok] at h3 ⊢
      obtain ⟨⟨r, s1⟩, ⟨v, hv, id', hid, ⟨x, s2⟩, hx, e⟩, e'⟩ := h3
      cases e
      simp only [Res.ok.injEq, Prod.mk.injEq] at e'
      obtain ⟨rfl, e'⟩ := e'
      cases hn : s.anchor .func id' with
      | some y =>
        rw [getAnchor_old _ _ _ _ hn] at hx
        cases hx
        exact ⟨_, ⟨v, hv, id', hid, _, getAnchor_old _ _ _ _ (hg.2 _ _ _ hn), rfl⟩, by rw [← e']⟩
      | none =>
        obtain ⟨z, s3, e, _, _, hd, _⟩ := getAnchor_new s .func id' hc hn (hs.1 _) (fun _ => hs.2)
        rw [e] at hx
        cases hx
        rw [hd] at h1
        cases h1
  exact ⟨key .scalar, key .window, fun r h => h⟩

/-! ### Writing depends on the registry only for relations and masks -/

theorem opt_eq (reg : Reg) {e : Expr} (h : e ≠ .nil) : Expr.optToProto reg e = Expr.toProto reg e := by
  cases e <;> first | exact absurd rfl h | (rw [Expr.optToProto]; simp)

section
variable {reg reg' : Reg} (h1 : reg.relTo = reg'.relTo) (h2 : reg.maskTo = reg'.maskTo)
include h1 h2

mutual
theorem expr_reg : ∀ (e : Expr), e.toProto reg = e.toProto reg'
  | .nil => by simp only [Expr.toProto]
  | .lit l => by simp only [Expr.toProto]
  | .fieldRef root ref known => by
    have : refToProto reg ref = refToProto reg' ref := by cases ref <;> simp only [refToProto, h2]
    simp only [Expr.toProto, this, root_reg root]
  | .ifThen ifs els => by
    have : Expr.optToProto reg els = Expr.optToProto reg' els := by
      by_cases hn : els = .nil
      · subst hn; simp only [Expr.optToProto]
      · rw [opt_eq reg hn, opt_eq reg' hn, expr_reg els]
    simp only [Expr.toProto, this, pairs_reg ifs]
  | .cast ty input _ => by simp only [Expr.toProto, expr_reg input]
  | .dynParam ty _ => by simp only [Expr.toProto]
  | .switch m ifs els => by
    have : Expr.optToProto reg els = Expr.optToProto reg' els := by
      by_cases hn : els = .nil
      · subst hn; simp only [Expr.optToProto]
      · rw [opt_eq reg hn, opt_eq reg' hn, expr_reg els]
    simp only [Expr.toProto, this, cases_reg ifs, expr_reg m]
  | .singularOr v os => by simp only [Expr.toProto, expr_reg v, list_reg os]
  | .multiOr v os => by simp only [Expr.toProto, list_reg v, rows_reg os]
  | .mapE _ _ kvs => by simp only [Expr.toProto, pairs_reg kvs]
  | .structE _ _ fs => by simp only [Expr.toProto, list_reg fs]
  | .listE _ _ vs => by simp only [Expr.toProto, list_reg vs]
  | .scalar a args => by simp only [Expr.toProto, args_reg args]
  | .window a _ args sorts parts => by
    simp only [Expr.toProto, args_reg args, sorts_reg sorts, list_reg parts]
  | .lambda n _ ps body => by simp only [Expr.toProto, expr_reg body]
  | .scalarSubquery r => by simp only [Expr.toProto, h1]
  | .inPredicate ns r => by simp only [Expr.toProto, list_reg ns, h1]
  | .setPredicate _ r => by simp only [Expr.toProto, h1]
  | .setComparison _ _ l r => by
    simp only [Expr.toProto, expr_reg l, h1]
theorem list_reg : ∀ (es : List Expr), Expr.toProtoList reg es = Expr.toProtoList reg' es
  | [] => by simp only [Expr.toProtoList]
  | e :: es => by simp only [Expr.toProtoList, expr_reg e, list_reg es]
theorem pairs_reg : ∀ (es : List EPair), EPair.toProtoList reg es = EPair.toProtoList reg' es
  | [] => by simp only [EPair.toProtoList]
  | .mk a b :: es => by simp only [EPair.toProtoList, expr_reg a, expr_reg b, pairs_reg es]
theorem cases_reg : ∀ (es : List ECase), ECase.toProtoList reg es = ECase.toProtoList reg' es
  | [] => by simp only [ECase.toProtoList]
  | .mk l e :: es => by simp only [ECase.toProtoList, expr_reg e, cases_reg es]
theorem rows_reg : ∀ (es : List ERow), ERow.toProtoList reg es = ERow.toProtoList reg' es
  | [] => by simp only [ERow.toProtoList]
  | .mk e :: es => by simp only [ERow.toProtoList, list_reg e, rows_reg es]
theorem root_reg : ∀ (r : ERoot), ERoot.toProto reg r = ERoot.toProto reg' r
  | .expr e => by
    by_cases hn : e = .nil
    · subst hn; simp only [ERoot.toProto]
    · have : ∀ rg, ERoot.toProto rg (.expr e) = Expr.toProto rg e >>= fun m => .ok (.expr m) := by
        intro rg
        cases e <;> first | exact absurd rfl hn | (rw [ERoot.toProto]; simp)
      rw [this, this, expr_reg e]
  | .rootReference => by simp only [ERoot.toProto]
  | .outer _ => by simp only [ERoot.toProto]
  | .lambdaParam _ => by simp only [ERoot.toProto]
theorem args_reg : ∀ (es : List EArg), EArg.toProtoList reg es = EArg.toProtoList reg' es
  | [] => by simp only [EArg.toProtoList]
  | .nil :: es => by simp only [EArg.toProtoList, EArg.toProto, args_reg es]
  | .expr e :: es => by simp only [EArg.toProtoList, EArg.toProto, expr_reg e, args_reg es]
  | .type t :: es => by simp only [EArg.toProtoList, EArg.toProto, args_reg es]
  | .enum s :: es => by simp only [EArg.toProtoList, EArg.toProto, args_reg es]
theorem sorts_reg : ∀ (es : List ESort), ESort.toProtoList reg es = ESort.toProtoList reg' es
  | [] => by simp only [ESort.toProtoList]
  | .mk e k :: es => by simp only [ESort.toProtoList, expr_reg e, sorts_reg es]
end
end

/-! ### What is built can be carried -/

theorem declared_of_impl {rest : Reg} {c : Collection} {k : FuncKind} {s : ExtSet} {id : ExtId}
    {args : List EArg} {a : FnAttrs} {v : Variant} (h : CallsImpl c k s id args a v) :
    DeclaredIn (Reg.ofSet rest c s) (s.declarationOf c k) a := by
  refine ⟨⟨v.urn, a.declaration⟩, h.reference, .inl ?_⟩
  simp only [ExtSet.declarationOf, ExtSet.lookupFunc, h.reference, h.registered, h.compound]

mutual
theorem describes_sendable (rest : Reg) (c : Collection) (s : ExtSet) (schema : Option (List Ty)) :
    ∀ (b : XExp) (ctx : List (List Ty)) (e : Expr), b.Sendable (Reg.ofSet rest c s) schema →
    b.CallTypes Ty.Sendable e → b.Describes c s schema ctx e → e.Sendable (Reg.ofSet rest c s) schema
  | .nil, ctx, e, h, ht, hd => hd.elim
  | .wrap x failed, ctx, e, h, ht, hd => by
    simp only [XExp.Describes] at hd
    obtain ⟨_, rfl⟩ := hd
    exact h
  | .cast ty fail input, ctx, e, h, ht, hd => by
    simp only [XExp.Describes] at hd
    obtain ⟨i, rfl, hd⟩ := hd
    simp only [XExp.Sendable, XExp.CallTypes] at h ht
    simp only [Expr.Sendable]
    exact ⟨h.1, describes_sendable rest c s schema input ctx i h.2 ht hd⟩
  | .dynParam ty ref, ctx, e, h, ht, hd => by
    simp only [XExp.Describes] at hd
    obtain ⟨t, rfl, rfl⟩ := hd
    simp only [XExp.Sendable] at h
    simp only [Expr.Sendable]
    exact h t rfl
  | .scalarFn id opts args, ctx, e, h, ht, hd => by
    simp only [XExp.Describes] at hd
    obtain ⟨a, as, v, rfl, _, hd, hcall⟩ := hd
    simp only [XExp.Sendable, XExp.CallTypes] at h ht
    simp only [Expr.Sendable]
    exact ⟨declared_of_impl hcall, ht.1, args_sendable rest c s schema args ctx as h ht.2 hd⟩
  | .windowFn id opts w args sorts parts, ctx, e, h, ht, hd => by
    simp only [XExp.Describes] at hd
    obtain ⟨a, as, ps, v, rfl, _, hd1, hd2, hcall, _⟩ := hd
    simp only [XExp.Sendable, XExp.CallTypes] at h ht
    simp only [Expr.Sendable]
    exact ⟨declared_of_impl hcall, ht.1, args_sendable rest c s schema args ctx as h.1 ht.2.1 hd1, h.2.1,
      list_sendable rest c s schema parts ctx ps h.2.2 ht.2.2 hd2⟩
  | .ref root ref, ctx, e, h, ht, hd => by
    simp only [XExp.Describes] at hd
    obtain ⟨steps, t, rfl, rfl, hr⟩ := hd
    simp only [XExp.Sendable] at h
    simp only [Expr.Sendable]
    exact ⟨h.1, (h.2 steps rfl).1, (h.2 steps rfl).2, hr⟩
  | .lambdaParam .., ctx, e, h, ht, hd => by simp only [XExp.Sendable] at h
  | .lambda params body, ctx, e, h, ht, hd => by
    simp only [XExp.Describes] at hd
    obtain ⟨p, ts, b, rfl, hn, hty, rfl, hd⟩ := hd
    simp only [XExp.Sendable, XExp.CallTypes] at h ht
    simp only [Expr.Sendable]
    refine ⟨trivial, fun t hm => h.1 p rfl t ?_, describes_sendable rest c s schema body _ b h.2 ht hd⟩
    rw [hty]
    exact List.mem_map.2 ⟨t, hm, rfl⟩
theorem args_sendable (rest : Reg) (c : Collection) (s : ExtSet) (schema : Option (List Ty)) :
    ∀ (b : List XArg) (ctx : List (List Ty)) (e : List EArg),
    XArg.SendableList (Reg.ofSet rest c s) schema b → XArg.CallTypes Ty.Sendable b e →
    XArg.DescribesList c s schema b ctx e → EArg.SendableList (Reg.ofSet rest c s) schema e
  | [], ctx, e, h, ht, hd => by
    simp only [XArg.DescribesList] at hd
    subst hd
    trivial
  | .enum v :: as, ctx, e, h, ht, hd => by
    simp only [XArg.DescribesList] at hd
    obtain ⟨es, rfl, hd⟩ := hd
    exact ⟨trivial, args_sendable rest c s schema as ctx es h ht hd⟩
  | .expr b :: as, ctx, e, h, ht, hd => by
    simp only [XArg.DescribesList] at hd
    obtain ⟨x, es, rfl, hd1, hd2⟩ := hd
    exact ⟨describes_sendable rest c s schema b ctx x h.1 ht.1 hd1,
      args_sendable rest c s schema as ctx es h.2 ht.2 hd2⟩
theorem list_sendable (rest : Reg) (c : Collection) (s : ExtSet) (schema : Option (List Ty)) :
    ∀ (b : List XExp) (ctx : List (List Ty)) (e : List Expr),
    XExp.SendableList (Reg.ofSet rest c s) schema b → XExp.CallTypesList Ty.Sendable b e →
    XExp.DescribesList c s schema b ctx e → Expr.SendableList (Reg.ofSet rest c s) schema e
  | [], ctx, e, h, ht, hd => by
    simp only [XExp.DescribesList] at hd
    subst hd
    trivial
  | b :: as, ctx, e, h, ht, hd => by
    simp only [XExp.DescribesList] at hd
    obtain ⟨x, es, rfl, hd1, hd2⟩ := hd
    exact ⟨describes_sendable rest c s schema b ctx x h.1 ht.1 hd1,
      list_sendable rest c s schema as ctx es h.2 ht.2 hd2⟩
end

/-! ### What is described is built -/

theorem describes_build (c : Collection) (s : ExtSet) (schema : Option (List Ty)) :
    ∀ (b : XExp) (ctx : Ctx) (e : Expr), b.Proper → b.NoCalls → b.Describes c s schema ctx.reverse e →
    XExp.build c schema b ctx s = .ok (e, s)
  | .nil, ctx, e, hp, hn, hd => hd.elim
  | .wrap x failed, ctx, e, hp, hn, hd => by
    simp only [XExp.Describes] at hd
    obtain ⟨rfl, rfl⟩ := hd
    rfl
  | .cast ty fail input, ctx, e, hp, hn, hd => by
    simp only [XExp.Describes] at hd
    obtain ⟨i, rfl, hd⟩ := hd
    simp only [XExp.build, describes_build c s schema input ctx i hp hn hd, Res.ok_bind]
  | .dynParam ty ref, ctx, e, hp, hn, hd => by
    simp only [XExp.Describes] at hd
    obtain ⟨t, rfl, rfl⟩ := hd
    rfl
  | .scalarFn .., ctx, e, hp, hn, hd => hn.elim
  | .windowFn .., ctx, e, hp, hn, hd => hn.elim
  | .ref root ref, ctx, e, hp, hn, hd => by
    simp only [XExp.build, (newFieldRef_recorded hp).2 hd, Res.ok_bind]
  | .lambdaParam field child steps, ctx, e, hp, hn, hd => by
    simp only [XExp.Describes] at hd
    obtain ⟨ps, t, h1, h2, rfl⟩ := hd
    simp only [XExp.build, (lambdaParam_walk hp).2 ⟨ps, h1, h2⟩, Res.ok_bind]
  | .lambda params body, ctx, e, hp, hn, hd => by
    simp only [XExp.Describes] at hd
    obtain ⟨p, ts, b, rfl, hnl, hty, rfl, hd⟩ := hd
    have hb : body.isNil = false := by
      cases body
      case nil => exact hd.elim
      all_goals rfl
    have hd' : body.Describes c s schema (ctx ++ [ts]).reverse b := by simpa using hd
    simp only [XExp.build, hnl, ne_eq, not_true, if_false, hty, types_check, hb, Bool.false_eq_true,
      describes_build c s schema body _ b hp hn hd', Res.ok_bind]

/-! ### In turn -/

theorem list_inTurn {c : Collection} {schema : Option (List Ty)} {ctx : Ctx} : ∀ {bs : List XExp}
    {s s' : ExtSet} {es : List Expr}, XExp.BuiltInTurn c schema ctx bs s es s' →
    XExp.buildList c schema bs ctx s = .ok (es, s')
  | _, _, _, _, .nil => rfl
  | _, _, _, _, .cons h ht => by simp only [XExp.buildList, h, Res.ok_bind, list_inTurn ht]

theorem args_inTurn {c : Collection} {schema : Option (List Ty)} {ctx : Ctx} : ∀ {bs : List XArg}
    {s s' : ExtSet} {es : List EArg}, XArg.BuiltInTurn c schema ctx bs s es s' →
    XArg.buildList c schema bs ctx s = .ok (es, s')
  | _, _, _, _, .nil => rfl
  | _, _, _, _, .enum ht => by simp only [XArg.buildList, Res.ok_bind, args_inTurn ht]
  | _, _, _, _, .expr h hn ht => by
    simp only [XArg.buildList, h, Res.ok_bind, args_inTurn ht, ofExpr_of hn]

end Verif

import Verif.Model.FuncCall
import Verif.Lemmas.Collection
import Verif.Lemmas.ExtSet
import Verif.Lemmas.Variants
import Verif.Spec.FuncCall
/-!
# Lemmas about building function calls
-/

namespace Verif

/-! ### What the maps of a collection contain -/

/-- every function is registered under its own id -/
def KeyedByName (m : GoMap ExtId Variant) : Prop :=
  ∀ id v, m.get id = some v → v.urn = id.urn ∧ v.compoundName = .ok id.name

/-- every short name stands for a compound name that extends it -/
def Short (m : GoMap String String) : Prop :=
  ∀ k n, m.get k = some n → ∃ sig, n = k ++ ":" ++ sig

theorem addVariants_keyed (urn : String) : ∀ (vs : List Variant) (m : GoMap ExtId Variant),
    (∀ v ∈ vs, v.urn = urn) → KeyedByName m → KeyedByName (addVariants urn vs m).1 := by
  intro vs
  induction vs with
  | nil => intro m _ h; exact h
  | cons v vs ih =>
    intro m hu h
    rw [addVariants]
    split
    · rename_i n hn
      refine ih _ (fun w hw => hu w (by simp [hw])) ?_
      intro id w hw
      rw [GoMap.get_set] at hw
      split at hw
      · rename_i e
        subst e
        cases hw
        exact ⟨hu v (by simp), hn⟩
      · exact h id w hw
    · exact h
    · exact h

theorem compound_extends {v : Variant} {n : String} (h : v.compoundName = .ok n) :
    ∃ sig, n = v.name ++ ":" ++ sig := by
  simp only [Variant.compoundName, Res.bind_eq_ok] at h
  obtain ⟨s, _, h⟩ := h
  cases h
  exact ⟨s, rfl⟩

theorem addToMaps_keyed (k : FuncKind) (urn : String) (d : FuncDecl) (s : LoadState)
    (h : ∀ k, KeyedByName (s.c.funcs k)) (hs : Short s.simple) :
    (∀ k', KeyedByName ((addToMaps k urn d s).1.c.funcs k')) ∧ Short (addToMaps k urn d s).1.simple := by
  have hm : KeyedByName (addVariants urn (d.variants k urn) (s.c.funcs k)).1 :=
    addVariants_keyed urn _ _ (fun v hv => by
      simp only [FuncDecl.variants, List.mem_map] at hv
      obtain ⟨i, _, rfl⟩ := hv
      rfl) (h k)
  have hw : ∀ k', KeyedByName ((s.c.withFuncs k (addVariants urn (d.variants k urn) (s.c.funcs k)).1).funcs k') := by
    intro k'
    rw [funcs_withFuncs]
    split
    · exact hm
    · exact h k'
  rw [addToMaps]
  rcases e : addVariants urn (d.variants k urn) (s.c.funcs k) with ⟨m, ⟨⟩ | _ | _⟩ <;> rw [e] at hw <;>
    simp only at hw ⊢
  · split
    · split
      · rename_i v _ n hn
        split
        · refine ⟨hw, ?_⟩
          intro a b hab
          rw [GoMap.get_del] at hab
          split at hab
          · cases hab
          · exact hs a b hab
        · refine ⟨hw, ?_⟩
          intro a b hab
          rw [GoMap.get_set] at hab
          split at hab
          · rename_i e
            cases hab
            rw [e]
            exact compound_extends hn
          · exact hs a b hab
      · exact ⟨hw, hs⟩
      · exact ⟨hw, hs⟩
    · exact ⟨hw, hs⟩
  · exact ⟨hw, hs⟩
  · exact ⟨hw, hs⟩

theorem addSteps_keyed (urn : String) : ∀ (l : List (FuncKind × FuncDecl)) (s : LoadState),
    (∀ k, KeyedByName (s.c.funcs k)) → Short s.simple →
    (∀ k', KeyedByName ((addSteps urn l s).1.c.funcs k')) ∧ Short (addSteps urn l s).1.simple := by
  intro l
  induction l with
  | nil => intro s h hs; exact ⟨h, hs⟩
  | cons p l ih =>
    intro s h hs
    obtain ⟨k, d⟩ := p
    rw [addSteps]
    split
    · exact ⟨h, hs⟩
    · have := addToMaps_keyed k urn d s h hs
      rcases e : addToMaps k urn d s with ⟨s', ⟨⟩ | _ | _⟩ <;> rw [e] at this
      · exact ih s' this.1 this.2
      · exact this
      · exact this

/-- the invariant of collections that are filled by `Load` -/
structure Collection.Sorted (c : Collection) : Prop where
  funcs : ∀ k, KeyedByName (c.funcs k)
  short : ∀ id n, c.simpleNames.get id = some n → ∃ sig, n = id.name ++ ":" ++ sig

theorem reachable_sorted {c : Collection} (h : c.Reachable) : c.Sorted := by
  induction h with
  | zero => exact ⟨fun k id v h => by (cases k <;> cases h), fun id n h => by cases h⟩
  | load c file _ ih =>
    cases file with
    | none => exact ih
    | some f =>
      by_cases hv : f.Valid c
      · have hfuncs : ∀ k, (c.loadTypes f).funcs k = c.funcs k := by intro k; cases k <;> rfl
        obtain ⟨h1, h2⟩ := addSteps_keyed f.urn f.steps ⟨c.loadTypes f, .empty⟩
          (fun k => by rw [hfuncs]; exact ih.funcs k) (fun a b h => by cases h)
        obtain ⟨⟨_, r2, _⟩, _⟩ := addSteps_other f.urn f.steps ⟨c.loadTypes f, .empty⟩
        have hfuncs' : ∀ (c : Collection) k m,
            (Collection.funcs { c with simpleNames := m } k) = c.funcs k := by
          intro c k m; cases k <;> rfl
        rw [load_valid hv]
        rcases e : addSteps f.urn f.steps ⟨c.loadTypes f, .empty⟩ with ⟨s, ⟨⟩ | _ | _⟩ <;>
          rw [e] at h1 h2 r2 <;> simp only at h1 h2 r2 ⊢
        · refine ⟨fun k => by rw [hfuncs']; exact h1 k, fun id n hn => ?_⟩
          dsimp only at hn
          rw [foldl_set_get _ _ _ _ s.simple.nodup, find_names, r2] at hn
          split at hn
          · rcases Option.or_eq_some_iff.1 hn with hn | ⟨_, hn⟩
            · exact h2 _ _ hn
            · exact ih.short _ _ hn
          · exact ih.short _ _ hn
        · exact ⟨h1, fun id n hn => ih.short _ _ (by rw [r2] at hn; exact hn)⟩
        · exact ⟨h1, fun id n hn => ih.short _ _ (by rw [r2] at hn; exact hn)⟩
      · have : (c.load (some f)).1 = c := by rcases load_invalid hv with e | e <;> rw [e]
        rw [this]
        exact ih

/-- what a lookup finds is registered under its own id, which the id asked for is or abbreviates -/
theorem getFunc_sorted {c : Collection} (hc : c.Sorted) {k : FuncKind} {id : ExtId} {v : Variant}
    (h : c.getFunc k id = some v) : ∃ n, v.compoundName = .ok n ∧ (c.funcs k).get ⟨v.urn, n⟩ = some v ∧
      v.urn = id.urn ∧ (n = id.name ∨ ∃ sig, n = id.name ++ ":" ++ sig) := by
  simp only [Collection.getFunc, checkMaps] at h
  cases hg : (c.funcs k).get id with
  | some w =>
    rw [hg] at h
    cases h
    obtain ⟨h1, h2⟩ := hc.funcs k id _ hg
    exact ⟨id.name, h2, by rw [h1]; exact hg, h1, .inl rfl⟩
  | none =>
    rw [hg] at h
    simp only at h
    split at h
    · rename_i n hn
      obtain ⟨h1, h2⟩ := hc.funcs k _ _ h
      exact ⟨n, h2, by rw [h1]; exact h, h1, .inr (hc.short _ _ hn)⟩
    · cases h

theorem getFunc_direct {c : Collection} {k : FuncKind} {id : ExtId} {v : Variant}
    (h : (c.funcs k).get id = some v) : c.getFunc k id = some v := by
  simp [Collection.getFunc, checkMaps, h]

/-! ### Arguments -/

/-- arguments that are expressions and enumeration values are all looked at -/
theorem callTypes_typed : ∀ {args : List EArg} {ts : List Ty}, callTypes args = .ok ts →
    (∀ a ∈ args, a.IsValue) → List.Forall₂ EArg.HasType args ts
  | [], ts, h, _ => by cases h; exact .nil
  | a :: as, ts, h, hv => by
    have hrest := fun b hb => hv b (List.mem_cons_of_mem a hb)
    have ha := hv a (by simp)
    cases a with
    | nil => cases ha
    | type t => cases ha
    | enum s =>
      simp only [callTypes, Res.bind_eq_ok] at h
      obtain ⟨us, h, e⟩ := h
      cases e
      exact .cons .enum (callTypes_typed h hrest)
    | expr e =>
      simp only [callTypes, Res.bind_eq_ok] at h
      obtain ⟨t, ht, us, h, e⟩ := h
      cases e
      exact .cons (.expr ht) (callTypes_typed h hrest)

/-! ### Anchors -/

/-- an anchor that is handed out refers to the id afterwards; other kinds are unaffected -/
theorem getAnchor_refers {s s' : ExtSet} {k : ExtKind} {id : ExtId} {a : UInt32}
    (ht : ∀ a id, s.anchor k id = some a → s.decode k a = some id)
    (h : s.getAnchor k id = .ok (a, s')) : s'.decode k a = some id ∧ s'.anchor k id = some a ∧
      (∀ k', k' ≠ k → (∀ b, s'.decode k' b = s.decode k' b) ∧ ∀ i, s'.anchor k' i = s.anchor k' i) := by
  rw [ExtSet.getAnchor] at h
  cases hg : (s.table k).byId.get id with
  | some b =>
    rw [hg] at h
    cases h
    exact ⟨ht _ _ hg, hg, fun _ _ => ⟨fun _ => rfl, fun _ => rfl⟩⟩
  | none =>
    rw [hg] at h
    simp only at h
    split at h
    · simp only [Res.ok.injEq, Prod.mk.injEq] at h
      obtain ⟨rfl, rfl⟩ := h
      refine ⟨?_, ?_, fun k' hk => ⟨fun b => ?_, fun i => ?_⟩⟩
      · cases k <;> simp [ExtSet.decode, ExtSet.table, ExtSet.withTable, IdTable.encode, GoMap.get_set]
      · cases k <;>
          simp [ExtSet.anchor, ExtSet.table, ExtSet.withTable, IdTable.encode, GoMap.get_set]
      · cases k <;> cases k' <;> first | exact absurd rfl hk | rfl
      · cases k <;> cases k' <;> first | exact absurd rfl hk | rfl
    · cases h

/-! ### Resolution -/

/-- the type of a call with the references of user-defined types -/
def withReference (g : String → UInt32) (out : Ty) (ret : FTy) : Ty :=
  match out, ret with
  | .udt n var _ ps, .udt _ _ name _ => .udt n var (g name) ps
  | out, _ => out

/-- The type reference plays no part in whether a call is accepted. -/
theorem evaluate_anchor {nh : NullHandling} {ret : FTy} {ps : List FuncParam} {v : Option Variadic}
    {ts : List Ty} {out : Ty} (f g : String → UInt32)
    (h : evaluateTypeExpression f nh ret ps v ts = .ok out) :
    evaluateTypeExpression g nh ret ps v ts = .ok (withReference g out ret) := by
  simp only [evaluateTypeExpression] at h ⊢
  split at h
  · cases h
  rename_i hc
  rw [if_neg hc]
  simp only [Res.bind_eq_ok] at h ⊢
  obtain ⟨b1, h1, b2, h2, r, h3, h⟩ := h
  refine ⟨b1, h1, b2, h2, r, h3, ?_⟩
  split at h
  · cases h
  rename_i hr
  rw [if_neg hr]
  simp only [Res.bind_eq_ok] at h ⊢
  obtain ⟨defs, h4, o, h5, h⟩ := h
  refine ⟨defs, h4, o, h5, ?_⟩
  split at h <;> rename_i hn
  · rw [if_pos hn]
    cases h
    cases o <;> cases ret <;> rfl
  · rw [if_neg hn]
    cases h
    cases o <;> cases ret <;> rfl

theorem evaluate_matches {f : String → UInt32} {nh : NullHandling} {ret : FTy} {ps : List FuncParam}
    {v : Option Variadic} {ts : List Ty} {out : Ty}
    (h : evaluateTypeExpression f nh ret ps v ts = .ok out) :
    ∃ after, matchArguments nh ps v ts = .ok (true, after) := by
  simp only [evaluateTypeExpression] at h
  split at h
  · cases h
  simp only [Res.bind_eq_ok] at h
  obtain ⟨b1, h1, b2, h2, ⟨b, after⟩, h3, h⟩ := h
  cases b with
  | false => simp at h
  | true => exact ⟨after, h3⟩

theorem findVariant_sorted {c : Collection} (hc : c.Sorted) {k : FuncKind} {s : ExtSet} {id : ExtId}
    {ts : List Ty} {v : Variant} (h : findVariant s (c.getFunc k) id ts = .ok v) :
    ∃ n, v.compoundName = .ok n ∧ (c.funcs k).get ⟨v.urn, n⟩ = some v ∧ v.urn = id.urn ∧
      NameOf id.name n := by
  rw [findVariant] at h
  split at h
  · rename_i w hw
    cases h
    obtain ⟨n, h1, h2, h3, h4⟩ := getFunc_sorted hc hw
    exact ⟨n, h1, h2, h3, h4⟩
  · split at h
    · cases h
    simp only [Res.bind_eq_ok] at h
    obtain ⟨sigs, _, h⟩ := h
    split at h
    · rename_i w hw
      cases h
      obtain ⟨n, h1, h2, h3, h4⟩ := getFunc_sorted hc hw
      refine ⟨n, h1, h2, h3, .inr ?_⟩
      rcases h4 with h4 | ⟨sig, h4⟩
      · exact ⟨_, by rw [h4, String.append_assoc]⟩
      · exact ⟨"_".intercalate sigs ++ ":" ++ sig, by rw [h4]; simp only [String.append_assoc]⟩
    · cases h

theorem resolveType_cases {v : Variant} {s s1 : ExtSet} {ts : List Ty} {out : Ty}
    (h : v.resolveType s ts = .ok (out, s1)) :
    ∃ ret o, v.impl.ret = some ret ∧
      evaluateTypeExpression (fun _ => 0) v.impl.nullability ret v.impl.args v.impl.variadic ts = .ok o ∧
      ((∃ name a, s.getAnchor .type ⟨v.urn, name⟩ = .ok (a, s1) ∧
          ∀ g : String → UInt32, g name = a → withReference g o ret = out) ∨
        (s1 = s ∧ ∀ g : String → UInt32, withReference g o ret = out)) := by
  rw [Variant.resolveType] at h
  cases hret : v.impl.ret with
  | none => rw [hret] at h; cases h
  | some ret =>
    rw [hret] at h
    simp only [Res.bind_eq_ok] at h
    obtain ⟨o, he, h⟩ := h
    refine ⟨ret, o, rfl, he, ?_⟩
    cases o
    case udt n var ref ps =>
      cases ret
      case udt n' v' name ps' =>
        simp only [Res.bind_eq_ok] at h
        obtain ⟨r, hr, e⟩ := h
        cases e
        exact .inl ⟨name, r.1, hr, fun g hg => by simp only [withReference, hg]⟩
      all_goals
        cases h
        exact .inr ⟨rfl, fun _ => rfl⟩
    all_goals
      cases h
      exact .inr ⟨rfl, fun _ => by cases ret <;> rfl⟩

/-- the reference of a resolved call stands for the variant found -/
theorem refers_of {c : Collection} (hc : c.Sorted) {k : FuncKind} {s s1 s2 : ExtSet} (ht : s.Tidy)
    {id : ExtId} {args : List EArg} {v : Variant} {out : Ty}
    {opts : List (String × List String)} {a : FnAttrs}
    (h : resolveVariant c k s id args = .ok (v, out, s1)) (h' : callOf v s1 opts out = .ok (a, s2)) :
    s2.lookupFunc c k a.funcRef = some v := by
  simp only [resolveVariant, Res.bind_eq_ok] at h
  obtain ⟨ts, hts, w, hw, r, hr, e⟩ := h
  simp only [Res.ok.injEq, Prod.mk.injEq] at e
  obtain ⟨rfl, e1, e2⟩ := e
  replace hr : w.resolveType s ts = .ok (out, s1) := by rw [hr, ← e1, ← e2]
  clear e1 e2
  obtain ⟨n, hn, hreg, hurn, hname⟩ := findVariant_sorted hc hw
  simp only [callOf, Variant.id, hn, Res.ok_bind, Res.bind_eq_ok] at h'
  obtain ⟨b, hb, e⟩ := h'
  simp only [Res.ok.injEq, Prod.mk.injEq] at e
  obtain ⟨rfl, rfl⟩ := e
  obtain ⟨ret, o, hret, he, hcase⟩ := resolveType_cases hr
  have hfunc : ∀ a id, s.anchor .func id = some a → s.decode .func a = some id :=
    fun a id h => (ht.1 _ _ _).2 h
  have hf1 : ∀ a id, s1.anchor .func id = some a → s1.decode .func a = some id := by
    rcases hcase with ⟨name, r, hr, hout⟩ | ⟨rfl, hout⟩
    · obtain ⟨g1, g2, g3⟩ := getAnchor_refers (fun a id h => (ht.1 _ _ _).2 h) hr
      obtain ⟨g3, g4⟩ := g3 .func (by simp)
      intro a id h
      rw [g3]
      exact hfunc a id (by rw [← g4]; exact h)
    · exact hfunc
  obtain ⟨g1, g2, g3⟩ := getAnchor_refers hf1 hb
  simp only [ExtSet.lookupFunc, g1, getFunc_direct hreg]

/-- what a resolved call is a call of -/
theorem calls_of {c : Collection} (hc : c.Sorted) {k : FuncKind} {s s1 s2 : ExtSet} (ht : s.Tidy)
    {id : ExtId} {args : List EArg} (ha : ∀ a ∈ args, a.IsValue) {v : Variant} {out : Ty}
    {opts : List (String × List String)} {a : FnAttrs}
    (h : resolveVariant c k s id args = .ok (v, out, s1)) (h' : callOf v s1 opts out = .ok (a, s2)) :
    CallsImpl c k s2 id args a v ∧ a.options = opts := by
  simp only [resolveVariant, Res.bind_eq_ok] at h
  obtain ⟨ts, hts, w, hw, r, hr, e⟩ := h
  simp only [Res.ok.injEq, Prod.mk.injEq] at e
  obtain ⟨rfl, e1, e2⟩ := e
  replace hr : w.resolveType s ts = .ok (out, s1) := by rw [hr, ← e1, ← e2]
  clear e1 e2
  obtain ⟨n, hn, hreg, hurn, hname⟩ := findVariant_sorted hc hw
  simp only [callOf, Variant.id, hn, Res.ok_bind, Res.bind_eq_ok] at h'
  obtain ⟨b, hb, e⟩ := h'
  simp only [Res.ok.injEq, Prod.mk.injEq] at e
  obtain ⟨rfl, rfl⟩ := e
  obtain ⟨ret, o, hret, he, hcase⟩ := resolveType_cases hr
  have htype : ∀ a id, s.anchor .type id = some a → s.decode .type a = some id :=
    fun a id h => (ht.1 _ _ _).2 h
  have hfunc : ∀ a id, s.anchor .func id = some a → s.decode .func a = some id :=
    fun a id h => (ht.1 _ _ _).2 h
  have key : (∀ a id, s1.anchor .func id = some a → s1.decode .func a = some id) ∧
      out = withReference (fun n => (s1.anchor .type ⟨w.urn, n⟩).getD 0) o ret := by
    rcases hcase with ⟨name, r, hr, hout⟩ | ⟨rfl, hout⟩
    · obtain ⟨g1, g2, g3⟩ := getAnchor_refers htype hr
      obtain ⟨g3, g4⟩ := g3 .func (by simp)
      refine ⟨fun a id h => ?_, (hout _ (by simp only [g2, Option.getD_some])).symm⟩
      rw [g3]
      exact hfunc a id (by rw [← g4]; exact h)
    · exact ⟨hfunc, (hout _).symm⟩
  obtain ⟨hf1, hout⟩ := key
  obtain ⟨g1, g2, g3⟩ := getAnchor_refers hf1 hb
  obtain ⟨_, g4⟩ := g3 .type (by simp)
  refine ⟨⟨hn, getFunc_direct hreg, hurn, hname, g1, ts, ret, callTypes_typed hts ha, hret,
    evaluate_matches he, ?_⟩, rfl⟩
  have := evaluate_anchor (fun _ => 0) (fun n => (b.2.anchor .type ⟨w.urn, n⟩).getD 0) he
  rw [this]
  simp only [g4]
  rw [hout]

/-! ### Signatures -/

/-- a parameter that names the type of an argument it accepts has the signature of the argument -/
theorem loose_signature {s : ExtSet} {t : Ty} : ∀ (p : FTy), p.matchLoose t = true → p.Names s t →
    callSignature s t = .ok p.shortString
  | .any .., _, hn => by cases hn
  | .derivation _ f, h, hn => by
    rw [FTy.matchLoose] at h
    rw [FTy.Names] at hn
    rw [FTy.shortString]
    exact loose_signature f h hn
  | .udt a b name d, h, hn => by
    cases t <;> simp only [FTy.matchLoose, Bool.false_eq_true] at h
    obtain ⟨urn, hd⟩ := hn _ _ _ _ rfl
    simp only [callSignature, hd, FTy.shortString]
  | .prim a b d, h, _ => by
    cases t <;> simp only [FTy.matchLoose, Bool.false_eq_true, decide_eq_true_eq] at h
    subst h
    rfl
  | .enum a b d name os, h, _ => by
    cases t <;> simp only [FTy.matchLoose, enumMatches, Bool.false_eq_true] at h
    rename_i isCommon _ _ _ _ _
    cases isCommon <;> rfl
  | .single k b p, h, _ => by
    cases t <;> simp only [FTy.matchLoose, singleMatches, Bool.false_eq_true, Bool.and_eq_true,
      decide_eq_true_eq] at h <;> (obtain ⟨rfl, _⟩ := h; rfl)
  | .decimal .., h, _ => by cases t <;> simp only [FTy.matchLoose, Bool.false_eq_true] at h; rfl
  | .list .., h, _ => by cases t <;> simp only [FTy.matchLoose, Bool.false_eq_true] at h; rfl
  | .map .., h, _ => by cases t <;> simp only [FTy.matchLoose, Bool.false_eq_true] at h; rfl
  | .struct .., h, _ => by cases t <;> simp only [FTy.matchLoose, Bool.false_eq_true] at h; rfl
  | .func .., h, _ => by cases t <;> simp only [FTy.matchLoose, Bool.false_eq_true] at h; rfl

theorem strict_signature {s : ExtSet} {t : Ty} (p : FTy) (h : p.matchStrict t = true) (hn : p.Names s t) :
    callSignature s t = .ok p.shortString := by
  cases p with
  | any => cases hn
  | udt a b name d =>
    cases t <;> simp only [FTy.matchStrict, Bool.false_eq_true, Bool.and_false] at h
    obtain ⟨urn, hd⟩ := hn _ _ _ _ rfl
    simp only [callSignature, hd, FTy.shortString]
  | list => cases t <;> simp only [FTy.matchStrict, Bool.false_eq_true, Bool.and_false] at h; rfl
  | map => cases t <;> simp only [FTy.matchStrict, Bool.false_eq_true, Bool.and_false] at h; rfl
  | struct => cases t <;> simp only [FTy.matchStrict, Bool.false_eq_true, Bool.and_false] at h; rfl
  | _ =>
    simp only [FTy.matchStrict, Bool.and_eq_true] at h
    exact loose_signature _ h.2 hn

theorem accepts_signature {nh : NullHandling} {s : ExtSet} {t : Ty} {p : FTy} (h : accepts nh p t = true)
    (hn : p.Names s t) : callSignature s t = .ok p.shortString := by
  cases nh <;> simp only [accepts, Bool.false_eq_true] at h
  · exact loose_signature p h hn
  · exact loose_signature p h hn
  · exact strict_signature p h hn

theorem signatures_agree {nh : NullHandling} {s : ExtSet} : ∀ {ps : List FuncParam} {defs : List FTy}
    {ts : List Ty}, funcDefs ps = .ok defs → List.Forall₂ (fun p t => accepts nh p t = true) defs ts →
    List.Forall₂ (FuncParam.Names s) ps ts →
    ∃ sigs, Res.mapL (callSignature s) ts = .ok sigs ∧ Res.mapL FuncParam.toTypeString ps = .ok sigs
  | [], defs, ts, h, hf, hn => by
    cases hn
    exact ⟨[], rfl, rfl⟩
  | p :: ps, defs, ts, h, hf, hn => by
    cases hn with
    | cons h1 h2 =>
      cases p with
      | type t => cases h1
      | missing => cases h1
      | value f =>
        simp only [funcDefs, Res.bind_eq_ok] at h
        obtain ⟨ds, hd, e⟩ := h
        cases e
        cases hf with
        | cons g1 g2 =>
          obtain ⟨sigs, e1, e2⟩ := signatures_agree hd g2 h2
          refine ⟨f.shortString :: sigs, ?_, ?_⟩
          · simp only [Res.mapL, accepts_signature g1 h1, e1, Res.ok_bind]
          · simp only [Res.mapL, FuncParam.toTypeString, e2, Res.ok_bind]
      | enum nm os =>
        simp only [funcDefs, Res.bind_eq_ok] at h
        obtain ⟨ds, hd, e⟩ := h
        cases e
        cases hf with
        | cons g1 g2 =>
          obtain ⟨sigs, e1, e2⟩ := signatures_agree hd g2 h2
          refine ⟨"req" :: sigs, ?_, ?_⟩
          · have := accepts_signature (s := s) g1 trivial
            simp only [Res.mapL, this, e1, Res.ok_bind]
            rfl
          · simp only [Res.mapL, FuncParam.toTypeString, e2, Res.ok_bind]

theorem funcDefs_len : ∀ {ps : List FuncParam} {defs : List FTy}, funcDefs ps = .ok defs →
    defs.length = ps.length
  | [], _, h => by cases h; rfl
  | p :: ps, _, h => by
    cases p <;> simp only [funcDefs, Res.bind_eq_ok, reduceCtorEq] at h <;>
      (obtain ⟨ds, hd, e⟩ := h; cases e; simp [funcDefs_len hd])

theorem match_signature {nh : NullHandling} {s : ExtSet} {ps : List FuncParam} {ts after : List Ty}
    (h : matchArguments nh ps none ts = .ok (true, after))
    (hn : List.Forall₂ (FuncParam.Names s) ps ts) :
    ∃ sigs, Res.mapL (callSignature s) ts = .ok sigs ∧ Res.mapL FuncParam.toTypeString ps = .ok sigs := by
  simp only [matchArguments, matchCount, Res.ok_bind] at h
  split at h
  · cases h
  rename_i hl
  simp only [Bool.not_eq_true', decide_eq_false_iff_not, not_not] at hl
  split at h
  · cases h
  · cases h
  rename_i defs hd
  simp only [Res.bind_eq_ok] at h
  obtain ⟨b, hb, h⟩ := h
  cases b with
  | false => simp at h
  | true =>
    have he := matchEach_true hb
    refine signatures_agree hd (nh := nh) ?_ hn
    have hlen := funcDefs_len hd
    rw [List.forall₂_iff_get]
    refine ⟨by omega, fun i h1 h2 => ?_⟩
    obtain ⟨p, hp, ha⟩ := he i ts[i] (by simp)
    rw [paramFor] at hp
    simp only [Nat.zero_add, h1, if_true] at hp
    rw [List.getElem?_eq_getElem h1] at hp
    cases hp
    exact ha

/-! ### Calls that are built -/

theorem getAnchor_two {s : ExtSet} (hc : s.Compact) (h1 : ∀ k, s.count k + 2 < 2 ^ 32)
    (h2 : s.urns.len + 2 < 2 ^ 32) (r q : AnchorReq) :
    ∃ a s1 b s2, s.getAnchor r.kind r.id = .ok (a, s1) ∧ s1.getAnchor q.kind q.id = .ok (b, s2) := by
  obtain ⟨as, s', h, _⟩ := run_compact [r, q] s hc h1 h2
  simp only [ExtSet.run, Res.bind_eq_ok] at h
  obtain ⟨p, hp, _, ⟨p', hp', _⟩, _⟩ := h
  exact ⟨p.1, p.2, p'.1, p'.2, hp, hp'⟩

/-- a call of the variant found is built when its parameters accept the argument types -/
theorem resolve_found {c : Collection} {k : FuncKind} {s : ExtSet} {id : ExtId} {args : List EArg}
    {ts : List Ty} {v : Variant} {n : String} {ret : FTy} {out : Ty} {f : String → UInt32}
    {opts : List (String × List String)}
    (hc : s.Compact) (h1 : ∀ k, s.count k + 2 < 2 ^ 32) (h2 : s.urns.len + 2 < 2 ^ 32)
    (hts : callTypes args = .ok ts) (hv : findVariant s (c.getFunc k) id ts = .ok v)
    (hn : v.compoundName = .ok n) (hret : v.impl.ret = some ret)
    (he : evaluateTypeExpression f v.impl.nullability ret v.impl.args v.impl.variadic ts = .ok out) :
    ∃ o s1 a s2, resolveVariant c k s id args = .ok (v, o, s1) ∧ callOf v s1 opts o = .ok (a, s2) ∧
      a.declaration = n := by
  have he := evaluate_anchor f (fun _ => 0) he
  have key : ∃ o s1 b s2, v.resolveType s ts = .ok (o, s1) ∧ s1.getAnchor .func ⟨v.urn, n⟩ = .ok (b, s2) := by
    simp only [Variant.resolveType, hret, he, Res.ok_bind]
    generalize withReference (fun _ => 0) out ret = o
    split
    · rename_i name _ _
      obtain ⟨a, s1, b, s2, g1, g2⟩ := getAnchor_two hc h1 h2 ⟨.type, ⟨v.urn, name⟩⟩ ⟨.func, ⟨v.urn, n⟩⟩
      exact ⟨_, s1, b, s2, by rw [g1]; rfl, g2⟩
    · obtain ⟨a, s1, _, _, g1, _⟩ := getAnchor_two hc h1 h2 ⟨.func, ⟨v.urn, n⟩⟩ ⟨.func, ⟨v.urn, n⟩⟩
      exact ⟨_, s, a, s1, rfl, g1⟩
  obtain ⟨o, s1, b, s2, g1, g2⟩ := key
  refine ⟨o, s1, ⟨b, n, opts, o⟩, s2, ?_, ?_, rfl⟩
  · simp only [resolveVariant, hts, hv, g1, Res.ok_bind]
  · simp only [callOf, Variant.id, hn, g2, Res.ok_bind]

theorem builds_found {c : Collection} {k : FuncKind} {s : ExtSet} {id : ExtId} {args : List EArg}
    {ts : List Ty} {v : Variant} {n : String} {ret : FTy} {out : Ty} {f : String → UInt32}
    (opts : List (String × List String))
    (hc : s.Compact) (h1 : ∀ k, s.count k + 2 < 2 ^ 32) (h2 : s.urns.len + 2 < 2 ^ 32)
    (hts : callTypes args = .ok ts) (hv : findVariant s (c.getFunc k) id ts = .ok v)
    (hn : v.compoundName = .ok n) (hret : v.impl.ret = some ret)
    (he : evaluateTypeExpression f v.impl.nullability ret v.impl.args v.impl.variadic ts = .ok out) :
    BuildsCall c k s id opts args n := by
  obtain ⟨o, s1, a, s2, g1, g2, g3⟩ := resolve_found (opts := opts) hc h1 h2 hts hv hn hret he
  cases k with
  | scalar =>
    exact ⟨a, s2, by simp only [newScalarFunc, g1, g2, Res.ok_bind], g3⟩
  | window =>
    refine fun inv => ⟨a, ⟨phaseInitialToResult, inv, 0, none, none⟩, s2, ?_, g3⟩
    simp only [newWindowFunc, g1, g2, Res.ok_bind]
    simp
  | aggregate =>
    refine fun inv sorts => ⟨⟨a, phaseInitialToResult, inv, args, sorts⟩, s2, ?_, g3, rfl⟩
    simp only [newAggregateFunc, g1, g2, Res.ok_bind]

theorem callTypes_of {args : List EArg} {ts : List Ty} (h : List.Forall₂ EArg.HasType args ts)
    (hv : ∀ a ∈ args, a.IsValue) : callTypes args = .ok ts := by
  induction h with
  | nil => rfl
  | @cons a t as ts h1 _ ih =>
    have := ih fun b hb => hv b (List.mem_cons_of_mem _ hb)
    cases h1 with
    | expr he => simp only [callTypes, he, this, Res.ok_bind]
    | enum => simp only [callTypes, this, Res.ok_bind]
    | type => cases hv (.type t) (by simp)

end Verif

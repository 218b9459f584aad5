import Verif.Lemmas.Variants
import Verif.Props.FuncTypes
/-!
# Function variants: C27, C28, C29, C31, C62, C63, C64
-/

namespace Verif

/-! ## C27 Accepted calls have matching arguments -/

/-- C27 in full. -/
def C27_statement : Prop :=
  ∀ (N : String → UInt32 → Prop) (nh : NullHandling) (params : List FuncParam)
    (variadic : Option Variadic) (args : List Ty),
    matchArguments nh params variadic args ≠ .panic ∧
    ∀ args', matchArguments nh params variadic args = .ok (true, args') →
      Admissible params.length variadic args.length ∧
      ∀ (i : Nat) (t : Ty), args[i]? = some t →
        ∃ p, paramFor params i = some p ∧ ParamFits N (nh = .discrete) p t

theorem matchLoose_touched {p : FTy} {a b : Ty} (h : Touched a b) :
    p.matchLoose b = p.matchLoose a := by
  rcases touched_eq_or h with rfl | ⟨n, rfl, hn⟩
  · rfl
  · exact C30_loose_ignores_nullability_partial n p a hn

theorem enum_fits {S : Prop} {N : String → UInt32 → Prop} {x : String} {os : List String} {t : Ty}
    (h : commonEnum.matchLoose t = true) : ParamFits N S (.enum x os) t := by
  cases t <;> simp [commonEnum, FTy.matchLoose, enumMatches] at h
  rename_i c n v y os
  exact ⟨c, n, v, y, os, rfl, by
    rcases h with h | h
    · exact .inl h
    · exact .inr h⟩

/-- C27, first half: what an accepted call looks like. Missing: user-defined parameter types (their
names are not compared, `C27_negation_name`), and under DISCRETE also function types (C61) and
interval_day arguments of a consistent variadic parameter (`C27_negation_interval`). -/
theorem C27_accepts_partial (N : String → UInt32 → Prop) {nh : NullHandling}
    {params : List FuncParam} {variadic : Option Variadic} {args args' : List Ty}
    (h : matchArguments nh params variadic args = .ok (true, args'))
    (hp : ∀ p ∈ params, ∀ d, p.declared = some d → d.NoUdt ∧ (nh = .discrete → d.Plain))
    (hv : nh = .discrete → ∀ v, variadic = some v → v.consistent = true →
      ∀ t ∈ args, ¬ t.IsDayInterval) :
    Admissible params.length variadic args.length ∧
    ∀ (i : Nat) (t : Ty), args[i]? = some t →
      ∃ p, paramFor params i = some p ∧ ParamFits N (nh = .discrete) p t := by
  obtain ⟨args1, defs, _, hadm, htouch, hsame, hdefs, heach, _⟩ := match_true h
  refine ⟨hadm, ?_⟩
  intro i t ht
  obtain ⟨t1, ht1, htt⟩ := forall₂_get htouch i t ht
  obtain ⟨d, hd, hacc⟩ := matchEach_true heach i t1 ht1
  obtain ⟨p, hpp, hpd⟩ := paramFor_forall₂ (funcDefs_ok hdefs) i d (by simpa using hd)
  have hmem : p ∈ params := by
    unfold paramFor at hpp
    split at hpp
    · exact List.mem_of_getElem? hpp
    · exact List.mem_of_getLast? hpp
  refine ⟨p, hpp, ?_⟩
  have loose : ∀ (hnd : nh ≠ .discrete), d.matchLoose t1 = true → ParamFits N (nh = .discrete) p t := by
    intro hnd hm
    rw [matchLoose_touched htt] at hm
    cases p with
    | value t' =>
      simp [FuncParam.def?] at hpd
      subst hpd
      have := (C61_loose_exact_partial N t' t (hp _ hmem t' rfl).1).1 hm
      simp only [ParamFits, hnd]
      exact this
    | enum x os =>
      simp [FuncParam.def?] at hpd
      subst hpd
      exact enum_fits hm
    | type => simp [FuncParam.def?] at hpd
    | missing => simp [FuncParam.def?] at hpd
  cases nh with
  | mirror => exact loose (by simp) hacc
  | declaredOutput => exact loose (by simp) hacc
  | unset => simp [accepts] at hacc
  | other => simp [accepts] at hacc
  | discrete =>
    have e : t1 = t := by
      cases hvar : variadic with
      | none =>
        have := hsame (by simp [hvar])
        subst this
        rw [ht] at ht1; simpa using ht1.symm
      | some v =>
        cases hc : v.consistent with
        | false =>
          have := hsame (by intro w hw; rw [hvar] at hw; cases hw; exact hc)
          subst this
          rw [ht] at ht1; simpa using ht1.symm
        | true => exact touched_id htt (hv rfl v hvar hc t (List.mem_of_getElem? ht))
    subst e
    simp only [accepts] at hacc
    cases p with
    | value t' =>
      simp [FuncParam.def?] at hpd
      subst hpd
      have := (C61_strict_exact_partial N t' t1 ((hp _ hmem t' rfl).2 rfl)).1 hacc
      simp only [ParamFits]
      exact this
    | enum x os =>
      simp [FuncParam.def?] at hpd
      subst hpd
      exact enum_fits (strict_loose _ _ hacc)
    | type => simp [FuncParam.def?] at hpd
    | missing => simp [FuncParam.def?] at hpd

/-- C27, second half: matching does not panic. Missing: user-defined parameter types
(`C27_negation_panic_udt`), and variadic functions called with too few arguments
(`C27_negation_panic`), declared without parameters, or with a minimum below one. -/
theorem C27_no_panic_partial {nh : NullHandling} {params : List FuncParam}
    {variadic : Option Variadic} {args : List Ty} (ha : ∀ t ∈ args, t.Argument)
    (hp : ∀ p ∈ params, ∀ d, p.declared = some d → d.NoUdt)
    (hv : ∀ v, variadic = some v → params ≠ [] ∧ params.length - 1 ≤ args.length ∧ 1 ≤ v.min) :
    matchArguments nh params variadic args ≠ .panic := by
  unfold matchArguments
  have key : ∀ args1, (∀ t ∈ args1, t.Argument) → params.length ≤ args1.length →
      (match funcDefs params with
        | .err => Res.ok (false, args1)
        | .panic => .panic
        | .ok defs =>
          matchEach nh defs variadic 0 args1 >>= fun b =>
          if !b then .ok (false, args1)
          else hasSyncParams [] defs >>= fun sync =>
            if sync then areSyncMatching defs args1 >>= fun b => .ok (b, args1)
            else validateAny defs args1 variadic >>= fun args => .ok (true, args)) ≠ .panic := by
    intro args1 ha1 hlen
    cases hd : funcDefs params with
    | err => simp
    | panic => exact absurd hd (funcDefs_ne_panic params)
    | ok defs =>
      have hf := funcDefs_ok hd
      have hl := hf.length_eq
      have hne : variadic.isSome → defs ≠ [] := by
        intro hs he
        cases variadic with
        | none => simp at hs
        | some v => subst he; exact (hv v rfl).1 (List.eq_nil_of_length_eq_zero hl)
      have hno : ∀ d ∈ defs, d.NoUdt := by
        intro d hdm
        obtain ⟨i, hi⟩ := List.mem_iff_getElem?.1 hdm
        obtain ⟨p, hpi, hpd⟩ := forall₂_get' hf i d hi
        cases p with
        | value t =>
          simp [FuncParam.def?] at hpd; subst hpd
          exact hp _ (List.mem_of_getElem? hpi) t rfl
        | enum => simp [FuncParam.def?] at hpd; subst hpd; simp [commonEnum, FTy.NoUdt]
        | type => simp [FuncParam.def?] at hpd
        | missing => simp [FuncParam.def?] at hpd
      simp only
      refine Res.bind_ne_panic (matchEach_ne_panic hne _ _) ?_
      intro b _
      split
      · simp
      · obtain ⟨s, hs⟩ := hasSync_total defs [] hno
        simp only [hs, Res.ok_bind]
        split
        · refine Res.bind_ne_panic ?_ (by simp)
          have := buildMap_ne_panic defs args1 .empty (by omega)
          unfold areSyncMatching
          split <;> simp_all
        · refine Res.bind_ne_panic ?_ (by simp)
          unfold validateAny
          refine Res.bind_ne_panic (expand_ne_panic hne) ?_
          intro ds _
          exact Res.bind_ne_panic
            (bindAnyTypesList_spec ds args1 .empty goodBindings_empty ha1).1 (by simp)
  refine Res.bind_ne_panic ?_ ?_
  · unfold matchCount
    cases variadic with
    | none => simp
    | some v =>
      obtain ⟨h1, h2, h3⟩ := hv v rfl
      obtain ⟨r, hr⟩ := validateVariadic_total v (args.drop (params.length - 1))
        (fun t ht => ha t (List.mem_of_mem_drop ht))
      simp only [hr, Res.ok_bind]
      split
      · rename_i hn
        simp [h1] at hn
        omega
      · simp
  · rintro ⟨b, args1⟩ h
    cases b with
    | false => simp
    | true =>
      simp only [Bool.not_true, Bool.false_eq_true, if_false]
      obtain ⟨hadm, ht, _⟩ := matchCount_true h
      refine key args1 ?_ ?_
      · intro t htm
        obtain ⟨i, hi⟩ := List.mem_iff_getElem?.1 htm
        obtain ⟨a, hai, hat⟩ := forall₂_get' ht i t hi
        exact touched_argument hat (ha a (List.mem_of_getElem? hai))
      · rw [← ht.length_eq]
        cases variadic with
        | none => simp only [Admissible] at hadm; omega
        | some v =>
          have := (hv v rfl).2.2
          simp only [Admissible] at hadm; omega

/-- a call that is accepted under the hypotheses of both parts, with a variadic parameter, an enum
argument and nested types -/
example :
    let params := [FuncParam.enum "part" ["YEAR", "MONTH"], .value (.list 2 (.any 2 "any1")),
      .value (.any 2 "any1")]
    let args := [Ty.enum true 0 0 "" [], .list 1 0 (.prim .i8 2 0), .prim .i8 1 0, .prim .i8 2 0]
    matchArguments .mirror params (some ⟨1, 0, true⟩) args = .ok (true, args) ∧
    (∀ p ∈ params, ∀ d, p.declared = some d →
      d.NoUdt ∧ (NullHandling.mirror = .discrete → d.Plain)) ∧
    (∀ t ∈ args, t.Argument) ∧ params ≠ [] ∧ params.length - 1 ≤ args.length := by
  refine ⟨?_, ?_, ?_, by simp, by simp⟩
  · simp [matchArguments, matchCount, validateVariadic, Variadic.validCount, consistentFrom,
      Ty.equals, Ty.withNullability, Ty.afterWithNullability, Ty.nullability, funcDefs, matchEach,
      matchArgumentAtCommon, Variadic.validPosition, Res.index, commonEnum, FTy.matchLoose,
      enumMatches, hasSyncParams, FTy.leaves, validateAny, expandParams, bindAnyTypesList,
      bindAnyTypes, bindAny, GoMap.get_set, touchAnyList, touchAny]
  · simp [FuncParam.declared, FTy.NoUdt]
  · simp [Ty.Argument, Ty.PlanType]

/-- C27 is false as stated: a parameter `u!point` accepts an argument of type `u!polygon`. -/
theorem C27_negation_name : ¬ C27_statement := by
  intro h
  obtain ⟨_, h⟩ := h (fun x r => (x = "point" ∧ r = 1) ∨ (x = "polygon" ∧ r = 2)) .mirror
    [.value (.udt 2 0 "point" [])] none [.udt 2 0 2 []]
  obtain ⟨_, h⟩ := h [.udt 2 0 2 []] (by
    simp [matchArguments, matchCount, funcDefs, matchEach, matchArgumentAtCommon, Res.index,
      FTy.matchLoose, FParam.matchLooseList, hasSyncParams, FTy.leaves, FParam.firstHasParam,
      validateAny, expandParams, bindAnyTypesList, bindAnyTypes, touchAnyList, touchAny])
  obtain ⟨p, hp, hf⟩ := h 0 (.udt 2 0 2 []) rfl
  simp [paramFor] at hp
  subst hp
  simp only [ParamFits] at hf
  cases hf with
  | udt _ _ _ _ _ _ _ _ _ hN _ => simp at hN

/-- ... a variadic function called with fewer arguments than it has other parameters panics -/
theorem C27_negation_panic : ¬ C27_statement := by
  intro h
  exact (h (fun _ _ => True) .mirror [.value (.prim .i32 2 0), .value (.prim .i32 2 0),
    .value (.prim .string 2 0)] (some ⟨1, 0, false⟩) [.prim .i32 2 0]).1 (by simp [matchArguments, matchCount])

/-- ... as does a declared user-defined type with a parameterized type argument -/
theorem C27_negation_panic_udt : ¬ C27_statement := by
  intro h
  exact (h (fun _ _ => True) .mirror
    [.value (.udt 2 0 "box" [.dataType (.single (.fixed .varChar) 2 (.var "L"))])] none
    [.udt 2 0 1 [.dataType (.fixed .varChar 2 0 5)]]).1 (by
      simp [matchArguments, matchCount, funcDefs, matchEach, matchArgumentAtCommon, Res.index,
        FTy.matchLoose, FParam.matchLooseList, FParam.matchLoose, singleMatches,
        IntParam.isCompatible, hasSyncParams, FTy.leaves, FParam.firstHasParam, FTy.hasParam,
        IntParam.isVar])

/-- ... as does a variadic function with minimum 0 whose parameters share an integer parameter, when
the variadic argument is left out -/
theorem C27_negation_panic_sync : ¬ C27_statement := by
  intro h
  exact (h (fun _ _ => True) .mirror
    [.value (.single (.fixed .varChar) 2 (.var "L")), .value (.single (.fixed .varChar) 2 (.var "L"))]
    (some ⟨0, 0, false⟩) [.fixed .varChar 2 0 5]).1 (by
      simp [matchArguments, matchCount, validateVariadic, Variadic.validCount, funcDefs, matchEach,
        matchArgumentAtCommon, Variadic.validPosition, Res.index, FTy.matchLoose, singleMatches,
        IntParam.isCompatible, hasSyncParams, FTy.leaves, IntParam.isVar, IntParam.str,
        areSyncMatching, buildNameValueMap, FTy.absParams, Ty.getParameters, bindNames])

/-- ... and under DISCRETE nullability a nullable interval_day is accepted for a required one, because
comparing the variadic arguments overwrites its nullability -/
theorem C27_negation_interval : ¬ C27_statement := by
  intro h
  obtain ⟨_, h⟩ := h (fun _ _ => True) .discrete
    [.value (.single (.prec .intervalDay) 2 (.var "P"))] (some ⟨1, 0, true⟩)
    [.prec .intervalDay 2 0 6, .prec .intervalDay 1 0 6]
  obtain ⟨_, h⟩ := h [.prec .intervalDay 2 0 6, .prec .intervalDay 2 0 6] (by
    simp [matchArguments, matchCount, validateVariadic, Variadic.validCount, consistentFrom,
      Ty.equals, Ty.withNullability, Ty.afterWithNullability, Ty.nullability, funcDefs, matchEach,
      matchArgumentAtCommon, Variadic.validPosition, Res.index, FTy.matchStrict, FTy.matchLoose,
      singleMatches, IntParam.isCompatible, hasSyncParams, FTy.leaves, IntParam.isVar, IntParam.str,
      validateAny, expandParams, bindAnyTypesList, bindAnyTypes, touchAnyList, touchAny])
  obtain ⟨p, hp, hf⟩ := h 1 (.prec .intervalDay 1 0 6) rfl
  simp [paramFor] at hp
  subst hp
  simp only [ParamFits] at hf
  cases hf with
  | prec _ _ _ _ _ _ h1 _ => exact absurd (h1 (by trivial)) (by decide)

/-! ## C29 Advertised argument counts agree with matching -/

/-- C29 in full. -/
def C29_statement : Prop :=
  ∀ (nh : NullHandling) (params : List FuncParam) (variadic : Option Variadic)
    (args args' : List Ty), matchArguments nh params variadic args = .ok (true, args') →
    minArgumentCount params variadic ≤ args.length ∧
    (args.length : Int) ≤ maxArgumentCount params variadic

/-- What is left of C29: for functions that are not variadic both counts are the number of arguments;
for variadic functions both counts are one too high, and the maximum means nothing if the number of
arguments is unlimited. Missing: the claim itself for variadic functions (`C29_negation`). -/
theorem C29_counts_partial {nh : NullHandling} {params : List FuncParam}
    {variadic : Option Variadic} {args args' : List Ty}
    (h : matchArguments nh params variadic args = .ok (true, args')) :
    (variadic = none → minArgumentCount params variadic = args.length ∧
      maxArgumentCount params variadic = args.length) ∧
    (∀ v, variadic = some v → minArgumentCount params variadic - 1 ≤ args.length ∧
      (v.max = 0 ∨ (args.length : Int) ≤ maxArgumentCount params variadic - 1)) := by
  obtain ⟨_, _, _, hadm, _⟩ := match_true h
  constructor
  · rintro rfl
    simp only [Admissible] at hadm
    simp [minArgumentCount, maxArgumentCount, hadm]
  · rintro v rfl
    simp only [Admissible] at hadm
    simp only [minArgumentCount, maxArgumentCount]
    omega

/-- an accepted variadic call with as few arguments as allowed -/
example : matchArguments .mirror [.value (.prim .i32 2 0)] (some ⟨1, 3, false⟩) [.prim .i32 1 0]
    = .ok (true, [.prim .i32 1 0]) := by
  simp [matchArguments, matchCount, validateVariadic, Variadic.validCount, funcDefs, matchEach,
    matchArgumentAtCommon, Variadic.validPosition, Res.index, FTy.matchLoose, hasSyncParams,
    FTy.leaves, validateAny, expandParams, bindAnyTypesList, bindAnyTypes, touchAnyList, touchAny]

/-- C29 is false as stated: a function with a single variadic parameter and minimum 1 accepts one
argument, but advertises a minimum of two. -/
theorem C29_negation : ¬ C29_statement := by
  intro h
  have := h .mirror [.value (.prim .i32 2 0)] (some ⟨1, 3, false⟩) [.prim .i32 1 0]
    [.prim .i32 1 0] (by
    simp [matchArguments, matchCount, validateVariadic, Variadic.validCount, funcDefs, matchEach,
      matchArgumentAtCommon, Variadic.validPosition, Res.index, FTy.matchLoose, hasSyncParams,
      FTy.leaves, validateAny, expandParams, bindAnyTypesList, bindAnyTypes, touchAnyList, touchAny])
  simp [minArgumentCount] at this

/-- ... and with an unlimited number of arguments it accepts three but advertises a maximum of one. -/
theorem C29_negation_unlimited : ¬ C29_statement := by
  intro h
  have := h .mirror [.value (.prim .i32 2 0)] (some ⟨0, 0, false⟩)
    [.prim .i32 1 0, .prim .i32 1 0, .prim .i32 1 0]
    [.prim .i32 1 0, .prim .i32 1 0, .prim .i32 1 0] (by
    simp [matchArguments, matchCount, validateVariadic, Variadic.validCount, funcDefs, matchEach,
      matchArgumentAtCommon, Variadic.validPosition, Res.index, FTy.matchLoose, hasSyncParams,
      FTy.leaves, validateAny, expandParams, bindAnyTypesList, bindAnyTypes, touchAnyList, touchAny])
  simp [maxArgumentCount] at this

/-! ## C31 Shared type variables are bound consistently -/

/-- C31 in full. -/
def C31_statement : Prop :=
  ∀ (nh : NullHandling) (params : List FuncParam) (variadic : Option Variadic)
    (args args' : List Ty), matchArguments nh params variadic args = .ok (true, args') →
    SameVariables params args

theorem declared_def {p : FuncParam} {d : FTy} (h : p.declared = some d) : p.def? = some d := by
  cases p <;> simp [FuncParam.declared] at h
  simp [FuncParam.def?, h]

theorem paramFor_defs {params : List FuncParam} {defs : List FTy}
    (h : List.Forall₂ (fun p d => p.def? = some d) params defs) {i : Nat} {p : FuncParam} {d : FTy}
    (hp : paramFor params i = some p) (hd : p.declared = some d) : paramFor defs i = some d := by
  have hl := h.length_eq
  unfold paramFor at *
  rw [← hl]
  split at hp
  · rename_i hi
    obtain ⟨b, hb, hr⟩ := forall₂_get h i p hp
    rw [declared_def hd] at hr
    simp [hi, hb, ← hr]
  · rename_i hi
    simp only [hi, if_false]
    rw [List.getLast?_eq_getElem?] at *
    obtain ⟨b, hb, hr⟩ := forall₂_get h _ p hp
    rw [declared_def hd] at hr
    rw [← hl, hb, hr]

/-- C31 for parameters that share no integer parameter (`C31_negation_sync`) and contain no function,
user-defined or derived types (`C31_negation_func`). -/
theorem C31_variables_partial {nh : NullHandling} {params : List FuncParam}
    {variadic : Option Variadic} {args args' : List Ty}
    (h : matchArguments nh params variadic args = .ok (true, args'))
    (ha : ∀ t ∈ args, t.Argument) (hp : ∀ p ∈ params, ∀ d, p.declared = some d → d.Plain)
    (hi : NoSharedInts params) : SameVariables params args := by
  obtain ⟨args1, defs, _, hadm, htouch, _, hdefs, heach, hfin⟩ := match_true h
  have hf := funcDefs_ok hdefs
  rcases hfin with ⟨hs, _⟩ | ⟨_, hv⟩
  · exact absurd (hasSync_false defs [] true (defs_pairwise hf hi) (by simp) hs) (by simp)
  · unfold validateAny at hv
    simp only [Res.bind_eq_ok] at hv
    obtain ⟨ds, he, b, hb, _⟩ := hv
    have ha1 : ∀ t ∈ args1, t.Argument := by
      intro t ht
      obtain ⟨i, hi⟩ := List.mem_iff_getElem?.1 ht
      obtain ⟨a, hai, hat⟩ := forall₂_get' htouch i t hi
      exact touched_argument hat (ha a (List.mem_of_getElem? hai))
    obtain ⟨_, _, hbind⟩ := (bindAnyTypesList_spec ds args1 .empty goodBindings_empty ha1).2 b hb
    have key : ∀ i d t x s, CallAt params args i d t → AnyAt x d t s → x ≠ "any" →
        ∃ e, b.get x = some e ∧ e.SameBut s := by
      rintro i d t x s ⟨⟨p, hpi, hpd⟩, hti⟩ hat hx
      obtain ⟨t1, ht1, htt⟩ := forall₂_get htouch i t hti
      obtain ⟨s1, hs1, hss⟩ := anyAt_touched hat htt
      have hpf := paramFor_defs hf hpi hpd
      have hlen : variadic = none → args1.length = defs.length := by
        rintro rfl
        simp only [Admissible] at hadm
        rw [← htouch.length_eq, ← hf.length_eq]; exact hadm
      have hdi := expand_get he hlen i (List.getElem?_eq_some_iff.1 ht1).1
      obtain ⟨d', hd', hacc⟩ := matchEach_true heach i t1 ht1
      simp only [Nat.zero_add] at hd'
      rw [hpf] at hd' hdi
      simp at hd'
      subst hd'
      have hm : d.matchLoose t1 = true := by
        cases nh <;> simp only [accepts] at hacc
        · cases hacc
        · exact hacc
        · exact hacc
        · exact strict_loose _ _ hacc
        · cases hacc
      have hmem : p ∈ params := by
        unfold paramFor at hpi
        split at hpi
        · exact List.mem_of_getElem? hpi
        · exact List.mem_of_getLast? hpi
      obtain ⟨e, hee, hes⟩ := hbind i d t1 hdi ht1 (hp p hmem d hpd) hm x s1 hs1 hx
      exact ⟨e, hee, sameBut_trans hes (sameBut_symm hss)⟩
    intro i j d e t u x s r hc hc' hx hx' hne
    obtain ⟨f, hf1, hf2⟩ := key i d t x s hc hx hne
    obtain ⟨f', hf1', hf2'⟩ := key j e u x r hc' hx' hne
    rw [hf1] at hf1'
    simp at hf1'
    subst hf1'
    exact sameBut_trans (sameBut_symm hf2) hf2'

/-- two places of `any1`, one of them nested, in an accepted call meeting the hypotheses -/
example :
    let params := [FuncParam.value (.list 2 (.any 2 "any1")), .value (.any 2 "any1"),
      .value (.decimal 2 (.var "P") (.var "S"))]
    let args := [Ty.list 2 0 (.prim .i8 1 0), .prim .i8 2 0, .decimal 2 0 2 10]
    matchArguments .mirror params none args = .ok (true, args) ∧ (∀ t ∈ args, t.Argument) ∧
    (∀ p ∈ params, ∀ d, p.declared = some d → d.Plain) ∧ NoSharedInts params := by
  refine ⟨?_, ?_, ?_, ?_⟩
  · simp [matchArguments, matchCount, Ty.equals, Ty.withNullability, Ty.afterWithNullability,
      funcDefs, matchEach, matchArgumentAtCommon, Res.index, FTy.matchLoose, hasSyncParams,
      FTy.leaves, IntParam.isVar, IntParam.str, IntParam.isCompatible, validateAny, expandParams,
      bindAnyTypesList, bindAnyTypes, bindAny, GoMap.get_set, touchAnyList, touchAny, anyUsesList,
      anyUses]
  · simp [Ty.Argument, Ty.PlanType]
  · simp [FuncParam.declared, FTy.Plain]
  · simp [NoSharedInts, FuncParam.intNames, FuncParam.declared, FTy.intNames]

/-- C31 is false as stated: when two parameters share an integer parameter, type variables are not
compared at all. -/
theorem C31_negation_sync : ¬ C31_statement := by
  intro h
  have := h .mirror
    [.value (.decimal 2 (.var "P") (.var "S")), .value (.decimal 2 (.var "P") (.var "S")),
      .value (.any 2 "any1"), .value (.any 2 "any1")] none
    [.decimal 2 0 2 10, .decimal 2 0 2 10, .prim .i32 2 0, .prim .string 2 0]
    [.decimal 2 0 2 10, .decimal 2 0 2 10, .prim .i32 2 0, .prim .string 2 0] (by
      simp [matchArguments, matchCount, funcDefs, matchEach, matchArgumentAtCommon, Res.index,
        FTy.matchLoose, hasSyncParams, FTy.leaves, IntParam.isVar, IntParam.str,
        IntParam.isCompatible, areSyncMatching, buildNameValueMap, FTy.absParams,
        Ty.getParameters, bindNames, GoMap.get_set, GVal.same])
  have := this 2 3 (.any 2 "any1") (.any 2 "any1") (.prim .i32 2 0) (.prim .string 2 0) "any1"
    (.prim .i32 2 0) (.prim .string 2 0) ⟨⟨_, rfl, rfl⟩, rfl⟩ ⟨⟨_, rfl, rfl⟩, rfl⟩ (.here _ _)
    (.here _ _) (by decide)
  simp [Ty.SameBut, Ty.Same, Ty.withNullability, Ty.erase] at this

/-- ... and type variables inside function types are never compared. -/
theorem C31_negation_func : ¬ C31_statement := by
  intro h
  have := h .mirror
    [.value (.list 2 (.any 2 "any1")), .value (.func 2 [.any 2 "any1"] (.prim .boolean 2 0))] none
    [.list 2 0 (.prim .i32 2 0), .func 2 [.prim .string 2 0] (.prim .boolean 2 0)]
    [.list 2 0 (.prim .i32 2 0), .func 2 [.prim .string 2 0] (.prim .boolean 2 0)] (by
      simp [matchArguments, matchCount, funcDefs, matchEach, matchArgumentAtCommon, Res.index,
        FTy.matchLoose, FTy.matchLooseList, hasSyncParams, FTy.leaves, FTy.leavesList,
        validateAny, expandParams, bindAnyTypesList, bindAnyTypes, bindAny,
        touchAnyList, touchAny, anyUsesList, anyUses])
  have := this 0 1 (.list 2 (.any 2 "any1")) (.func 2 [.any 2 "any1"] (.prim .boolean 2 0))
    (.list 2 0 (.prim .i32 2 0)) (.func 2 [.prim .string 2 0] (.prim .boolean 2 0)) "any1"
    (.prim .i32 2 0) (.prim .string 2 0) ⟨⟨_, rfl, rfl⟩, rfl⟩ ⟨⟨_, rfl, rfl⟩, rfl⟩
    (.list _ _ _ _ _ _ (.here _ _))
    (.funcParam _ _ _ _ _ _ _ 0 _ _ rfl rfl (.here _ _)) (by decide)
  simp [Ty.SameBut, Ty.Same, Ty.withNullability, Ty.erase] at this

/-! ## C28 MIRROR result nullability -/

/-- C28 in full. -/
def C28_statement : Prop :=
  ∀ (anchor : String → UInt32) (ret : FTy) (params : List FuncParam) (variadic : Option Variadic)
    (args : List Ty) (out : Ty),
    evaluateTypeExpression anchor .mirror ret params variadic args = .ok out →
    ((∃ t ∈ args, t.nullability = NullabilityNullable) → out.nullability = NullabilityNullable) ∧
    (¬ (∃ t ∈ args, t.nullability = NullabilityNullable) → out.nullability = NullabilityRequired)

/-- C28 for arguments whose nullability is known (enum arguments have none), and without arguments
beyond the declared parameters of a function with independent variadic arguments. Missing: unknown
nullability counts as nullable (`C28_negation_unspecified`), and those arguments are not looked at
(`C28_negation`). -/
theorem C28_mirror_partial {anchor : String → UInt32} {ret : FTy} {params : List FuncParam}
    {variadic : Option Variadic} {args : List Ty} {out : Ty}
    (h : evaluateTypeExpression anchor .mirror ret params variadic args = .ok out)
    (hn : ∀ (i : Nat) (t : Ty) (p : FuncParam), args[i]? = some t → paramFor params i = some p →
      (p.declared.isSome → t.nullability = NullabilityNullable ∨ t.nullability = NullabilityRequired) ∧
      (p.declared.isNone → t.nullability ≠ NullabilityNullable))
    (hv : ∀ v, variadic = some v → v.consistent = true ∨ args.length ≤ params.length) :
    ((∃ t ∈ args, t.nullability = NullabilityNullable) → out.nullability = NullabilityNullable) ∧
    (¬ (∃ t ∈ args, t.nullability = NullabilityNullable) → out.nullability = NullabilityRequired) := by
  unfold evaluateTypeExpression at h
  split at h
  · simp at h
  · rename_i hcount
    simp only [Res.bind_eq_ok] at h
    obtain ⟨nonNull, h1, restNonNull, h2, ⟨m, args'⟩, h3, h4⟩ := h
    have k1 := validateTypes_mirror h1
    cases m with
    | false => simp at h4
    | true =>
      simp only [Bool.not_true, Bool.false_eq_true, if_false, Res.bind_eq_ok] at h4
      obtain ⟨defs, _, o, _, h5⟩ := h4
      simp only [decide_true, Bool.true_or, if_true, Res.ok.injEq] at h5
      obtain ⟨_, _, _, hadm, _⟩ := match_true h3
      have hout : out.nullability =
          if nonNull && restNonNull then NullabilityRequired else NullabilityNullable := by
        rw [← h5]
        exact wn_nullability _ _
      have key : (nonNull && restNonNull) = true ↔
          ¬ ∃ t ∈ args, t.nullability = NullabilityNullable := by
        rw [Bool.and_eq_true, k1]
        constructor
        · rintro ⟨ha, hb⟩ ⟨t, ht, htn⟩
          obtain ⟨i, hi⟩ := List.mem_iff_getElem?.1 ht
          have hlt := (List.getElem?_eq_some_iff.1 hi).1
          by_cases hip : i < params.length
          · obtain ⟨p, hp⟩ : ∃ p, params[i]? = some p := ⟨params[i], by simp [hip]⟩
            have hpf : paramFor params i = some p := by
              unfold paramFor; rw [if_pos hip]; exact hp
            obtain ⟨g1, g2⟩ := hn i t p hi hpf
            cases hd : p.declared with
            | none => exact g2 (by simp [hd]) htn
            | some d =>
              have := ha i p t hp hi (by simp [hd])
              rw [htn] at this
              exact absurd this (by decide)
          · cases hvar : variadic with
            | none => rw [hvar] at hadm; simp only [Admissible] at hadm; omega
            | some v =>
              rcases hv v hvar with hc | hc
              · have hlen : params.length < args.length := by omega
                simp only [hvar, isConsistent, hc, hlen, decide_true, Bool.and_self, if_true] at h2
                cases hg : params.getLast? with
                | none => simp [hg] at h2
                | some last =>
                  simp only [hg] at h2
                  have k2 := (validateRest_mirror h2).1 hb
                  have hpf : paramFor params i = some last := by simp [paramFor, hip, hg]
                  obtain ⟨g1, g2⟩ := hn i t last hi hpf
                  cases hd : last.declared with
                  | none => exact g2 (by simp [hd]) htn
                  | some d =>
                    have := k2 t (by
                      rw [List.mem_iff_getElem?]
                      exact ⟨i - params.length, by
                        rw [List.getElem?_drop, Nat.add_sub_cancel' (by omega)]; exact hi⟩) (by simp [hd])
                    rw [htn] at this
                    exact absurd this (by decide)
              · omega
        · intro hno
          constructor
          · intro i p t hp ht hd
            have hip := (List.getElem?_eq_some_iff.1 hp).1
            have hpf : paramFor params i = some p := by
              unfold paramFor; rw [if_pos hip]; exact hp
            rcases (hn i t p ht hpf).1 hd with h | h
            · exact absurd ⟨t, List.mem_of_getElem? ht, h⟩ hno
            · exact h
          · split at h2
            · rename_i hc
              cases hg : params.getLast? with
              | none => simp [hg] at h2
              | some last =>
                simp only [hg] at h2
                refine (validateRest_mirror h2).2 ?_
                intro t ht hd
                obtain ⟨j, hj⟩ := List.mem_iff_getElem?.1 ht
                rw [List.getElem?_drop] at hj
                have hpf : paramFor params (params.length + j) = some last := by
                  simp [paramFor, hg]
                rcases (hn _ t last hj hpf).1 hd with h | h
                · exact absurd ⟨t, List.mem_of_getElem? hj, h⟩ hno
                · exact h
            · simp at h2; exact h2
      rw [hout]
      by_cases hex : ∃ t ∈ args, t.nullability = NullabilityNullable
      · have : (nonNull && restNonNull) = false := by
          cases hb : (nonNull && restNonNull) with
          | false => rfl
          | true => exact absurd hex (key.1 hb)
        simp only [this]
        exact ⟨fun _ => rfl, fun h => absurd hex h⟩
      · have := key.2 hex
        simp only [this]
        exact ⟨fun h => absurd h hex, fun _ => rfl⟩

/-- a call with a nullable argument among the further ones of a consistent variadic parameter -/
example : evaluateTypeExpression (fun _ => 0) .mirror (.prim .boolean 2 0) [.value (.prim .i32 2 0)]
    (some ⟨1, 0, true⟩) [.prim .i32 2 0, .prim .i32 1 0] = .ok (.prim .boolean 1 0) := by
  simp [evaluateTypeExpression, countOk, isConsistent, validateTypes, validateType, validateRest, Ty.nullability,
    matchArguments, matchCount, validateVariadic, Variadic.validCount, consistentFrom, Ty.equals,
    Ty.withNullability, Ty.afterWithNullability, funcDefs, matchEach, matchArgumentAtCommon,
    Variadic.validPosition, Res.index, FTy.matchLoose, hasSyncParams, FTy.leaves, validateAny,
    expandParams, bindAnyTypesList, bindAnyTypes, touchAnyList, touchAny, FuncParam.typeExpression,
    FTy.returnType, NullabilityRequired, NullabilityNullable]

/-- C28 is false as stated: with independent variadic arguments, those beyond the declared parameters
do not count. -/
theorem C28_negation : ¬ C28_statement := by
  intro h
  have h1 : evaluateTypeExpression (fun _ => 0) .mirror (.prim .boolean 2 0)
      [.value (.prim .i32 2 0)] (some ⟨1, 0, false⟩) [.prim .i32 2 0, .prim .i32 1 0]
      = .ok (.prim .boolean 2 0) := by
    simp [evaluateTypeExpression, countOk, isConsistent, validateTypes, validateType, Ty.nullability,
      matchArguments, matchCount, validateVariadic, Variadic.validCount,
      Ty.withNullability, funcDefs, matchEach, matchArgumentAtCommon,
      Variadic.validPosition, Res.index, FTy.matchLoose, hasSyncParams, FTy.leaves, validateAny,
      expandParams, bindAnyTypesList, bindAnyTypes, touchAnyList, touchAny,
      FuncParam.typeExpression, FTy.returnType, NullabilityRequired]
  have := (h _ _ _ _ _ _ h1).1 ⟨.prim .i32 1 0, by simp, rfl⟩
  exact absurd this (by decide)

/-- ... and an argument of unspecified nullability makes the result nullable. -/
theorem C28_negation_unspecified : ¬ C28_statement := by
  intro h
  have h1 : evaluateTypeExpression (fun _ => 0) .mirror (.prim .boolean 2 0)
      [.value (.prim .i32 2 0)] none [.prim .i32 0 0] = .ok (.prim .boolean 1 0) := by
    simp [evaluateTypeExpression, countOk, isConsistent, validateTypes, validateType, Ty.nullability,
      matchArguments, matchCount, Ty.withNullability, funcDefs, matchEach, matchArgumentAtCommon,
      Res.index, FTy.matchLoose, hasSyncParams, FTy.leaves, validateAny,
      expandParams, bindAnyTypesList, bindAnyTypes, touchAnyList, touchAny,
      FuncParam.typeExpression, FTy.returnType, NullabilityRequired, NullabilityNullable]
  have := (h _ _ _ _ _ _ h1).2 (by
    rintro ⟨t, ht, hn⟩
    simp at ht; subst ht
    exact absurd hn (by decide))
  exact absurd this (by decide)

/-! ## C63 Consistent variadic arguments have one type -/

/-- C63 in full. -/
def C63_statement : Prop :=
  ∀ (nh : NullHandling) (params : List FuncParam) (v : Variadic) (args args' : List Ty),
    matchArguments nh params (some v) args = .ok (true, args') → v.consistent = true →
    (∀ t ∈ args, t.Argument) → SameVariadic params.length args

theorem consistent_sameVariadic {n : Nat} {args : List Ty} {k : Nat}
    (h : ∀ a rest, (args.drop (n - 1)).drop k = a :: rest → ∀ t ∈ rest, a.SameBut t)
    (i j : Nat) (t u : Ty) (hi : n - 1 + k ≤ i) (hj : n - 1 + k ≤ j) (ht : args[i]? = some t)
    (hu : args[j]? = some u) : t.SameBut u := by
  have e : ∀ (i : Nat) (t : Ty), n - 1 + k ≤ i → args[i]? = some t →
      ((args.drop (n - 1)).drop k)[i - (n - 1 + k)]? = some t := by
    intro i t hi ht
    rw [List.drop_drop, List.getElem?_drop, Nat.add_sub_cancel' hi]
    exact ht
  have h1 := e i t hi ht
  have h2 := e j u hj hu
  cases hd : (args.drop (n - 1)).drop k with
  | nil => rw [hd] at h1; simp at h1
  | cons a rest =>
    rw [hd] at h1 h2
    have key : ∀ (m : Nat) (t : Ty), (a :: rest)[m]? = some t → a.SameBut t := by
      intro m t hm
      cases m with
      | zero => simp at hm; subst hm; exact sameBut_refl a
      | succ m => exact h a rest hd t (List.mem_of_getElem? (by simpa using hm))
    exact sameBut_trans (sameBut_symm (key _ t h1)) (key _ u h2)

/-- C63 for a minimum of at most one argument. Missing: with a larger minimum `m` the first `m - 1`
variadic arguments are not compared with the others (`C63_negation`). -/
theorem C63_consistent_partial {nh : NullHandling} {params : List FuncParam} {v : Variadic}
    {args args' : List Ty} (h : matchArguments nh params (some v) args = .ok (true, args'))
    (hc : v.consistent = true) (ha : ∀ t ∈ args, t.Argument) (hm : v.min ≤ 1) :
    SameVariadic params.length args := by
  obtain ⟨args1, defs, hcount, hadm, _⟩ := match_true h
  unfold matchCount at hcount
  simp only at hcount
  split at hcount
  · simp at hcount
  · obtain ⟨b, rest', hv, hb⟩ := validateVariadic_spec v (args.drop (params.length - 1))
      (fun t ht => ha t (List.mem_of_mem_drop ht))
    rw [hv] at hcount
    simp at hcount
    have h2 := (hb.1 hcount.1).2 hc
    have e : (max (v.min - 1) 0).toNat = 0 := by omega
    rw [e] at h2
    intro i j t u hi hj ht hu
    exact consistent_sameVariadic h2 i j t u (by omega) (by omega) ht hu

/-- three arguments for a consistent variadic parameter, with different nullability -/
example : matchArguments .mirror [.value (.any 2 "any")] (some ⟨1, 0, true⟩)
    [.prim .i32 2 0, .prim .i32 1 0, .prim .i32 2 0]
    = .ok (true, [.prim .i32 2 0, .prim .i32 1 0, .prim .i32 2 0]) := by
  simp [matchArguments, matchCount, validateVariadic, Variadic.validCount, consistentFrom, Ty.equals,
    Ty.withNullability, Ty.afterWithNullability, Ty.nullability, funcDefs, matchEach,
    matchArgumentAtCommon, Variadic.validPosition, Res.index, FTy.matchLoose, hasSyncParams,
    FTy.leaves, validateAny, expandParams, bindAnyTypesList, bindAnyTypes, bindAny, touchAnyList,
    touchAny, anyUsesList, anyUses]

/-- C63 is false as stated: with minimum 2 an i32 and a string are accepted. -/
theorem C63_negation : ¬ C63_statement := by
  intro h
  have := h .mirror [.value (.any 2 "any")] ⟨2, 0, true⟩ [.prim .i32 2 0, .prim .string 2 0]
    [.prim .i32 2 0, .prim .string 2 0] (by
      have e : (max (1 : Int) 0).toNat = 1 := rfl
      simp [e, matchArguments, matchCount, validateVariadic, Variadic.validCount, consistentFrom,
        funcDefs, matchEach, matchArgumentAtCommon, Variadic.validPosition, Res.index,
        FTy.matchLoose, hasSyncParams, FTy.leaves, validateAny, expandParams, bindAnyTypesList,
        bindAnyTypes, bindAny, touchAnyList, touchAny, anyUsesList, anyUses]) rfl
    (by simp [Ty.Argument, Ty.PlanType])
  have := this 0 1 (.prim .i32 2 0) (.prim .string 2 0) (by simp) (by simp) rfl rfl
  simp [Ty.SameBut, Ty.Same, Ty.withNullability, Ty.erase] at this

/-! ## C64 Matching leaves the argument types alone -/

/-- C64 in full: the argument types are the same objects with the same contents afterwards. -/
def C64_statement : Prop :=
  ∀ (nh : NullHandling) (params : List FuncParam) (variadic : Option Variadic)
    (args args' : List Ty) (b : Bool), matchArguments nh params variadic args = .ok (b, args') →
    args' = args

/-- C64 for arguments without interval_day types, whatever the answer. Missing: interval_day types
(`C64_negation`). -/
theorem C64_unchanged_partial {nh : NullHandling} {params : List FuncParam}
    {variadic : Option Variadic} {args args' : List Ty} {b : Bool}
    (h : matchArguments nh params variadic args = .ok (b, args')) (ha : Ty.NoDayList args) :
    args' = args := by
  unfold matchArguments at h
  rw [Res.bind_eq_ok] at h
  obtain ⟨⟨c, args1⟩, h1, h2⟩ := h
  have e := touched_list_id (matchCount_touched h1) ha
  subst e
  cases c with
  | false => simp at h2; exact h2.2.symm
  | true =>
    simp only [Bool.not_true, Bool.false_eq_true, if_false] at h2
    cases hd : funcDefs params with
    | err => simp [hd] at h2; exact h2.2.symm
    | panic => simp [hd] at h2
    | ok defs =>
      simp only [hd, Res.bind_eq_ok] at h2
      obtain ⟨d, h3, h4⟩ := h2
      cases d with
      | false => simp at h4; exact h4.2.symm
      | true =>
        simp only [Bool.not_true, Bool.false_eq_true, if_false, Res.bind_eq_ok] at h4
        obtain ⟨s, h5, h6⟩ := h4
        cases s with
        | true =>
          simp only [if_true, Res.bind_eq_ok] at h6
          obtain ⟨f, _, h7⟩ := h6
          simp at h7; exact h7.2.symm
        | false =>
          simp only [Bool.false_eq_true, if_false, Res.bind_eq_ok] at h6
          obtain ⟨args2, h7, h8⟩ := h6
          simp at h8
          obtain ⟨_, rfl⟩ := h8
          unfold validateAny at h7
          simp only [Res.bind_eq_ok] at h7
          obtain ⟨ds, _, b, _, h9⟩ := h7
          simp at h9
          rw [← h9]
          exact touchAnyList_id _ _ _ ha

/-- repeated type variables over types without interval_day -/
example : Ty.NoDayList [.list 1 0 (.prim .i8 2 0), .list 2 0 (.prim .i8 2 0)] ∧
    matchArguments .mirror [.value (.any 2 "any1"), .value (.any 2 "any1")] none
      [.list 1 0 (.prim .i8 2 0), .list 2 0 (.prim .i8 2 0)]
    = .ok (true, [.list 1 0 (.prim .i8 2 0), .list 2 0 (.prim .i8 2 0)]) := by
  refine ⟨by simp [Ty.NoDayList, Ty.NoDay], ?_⟩
  simp [matchArguments, matchCount, Ty.equals, Ty.withNullability, Ty.afterWithNullability, funcDefs,
    matchEach, matchArgumentAtCommon, Res.index, FTy.matchLoose, hasSyncParams, FTy.leaves,
    validateAny, expandParams, bindAnyTypesList, bindAnyTypes, bindAny, GoMap.get_set, touchAnyList,
    touchAny, anyUsesList, anyUses]

/-- C64 is false as stated: two nullable interval_day arguments for `any1` are required ones
afterwards. -/
theorem C64_negation : ¬ C64_statement := by
  intro h
  have := h .mirror [.value (.any 2 "any1"), .value (.any 2 "any1")] none
    [.prec .intervalDay 1 0 6, .prec .intervalDay 1 0 6]
    [.prec .intervalDay 2 0 6, .prec .intervalDay 2 0 6] true (by
      simp [matchArguments, matchCount, Ty.equals, Ty.withNullability, Ty.afterWithNullability,
        funcDefs, matchEach, matchArgumentAtCommon, Res.index, FTy.matchLoose, hasSyncParams,
        FTy.leaves, validateAny, expandParams, bindAnyTypesList, bindAnyTypes, bindAny,
        GoMap.get_set, touchAnyList, touchAny, anyUsesList, anyUses, NullabilityRequired])
  simp at this

/-! ## C65 Shared integer parameters are bound consistently -/

/-- C65 in full: in an accepted call, all declared positions with one integer variable have the same
value. -/
def C65_statement : Prop :=
  ∀ (nh : NullHandling) (params : List FuncParam) (variadic : Option Variadic)
    (args args' : List Ty), matchArguments nh params variadic args = .ok (true, args') →
    SameIntegers params (args.take params.length)

theorem flat_intAt {x : String} {p : FTy} {t : Ty} {c : Int32} (h : IntAt x p t c) (hf : p.IsFlat) :
    (∃ l, p.leaves = .ok l ∧ x ∈ l) ∧ ∃ (j : Nat) (v : GVal), p.absParams[j]? = some (.int (.var x)) ∧
      t.getParameters[j]? = some v ∧ (v = .int (Int64.ofInt c.toInt) ∨ v = .prec c) := by
  cases h with
  | fixed k n n' v' l =>
    exact ⟨⟨_, rfl, by simp [IntParam.isVar, IntParam.str]⟩, 0, _, by simp [FTy.absParams, IntParam.isVar],
      by simp [Ty.getParameters], .inl rfl⟩
  | prec k n n' v' q =>
    exact ⟨⟨_, rfl, by simp [IntParam.isVar, IntParam.str]⟩, 0, _, by simp [FTy.absParams, IntParam.isVar],
      by simp [Ty.getParameters], .inr rfl⟩
  | precision n s n' v' s' p' =>
    exact ⟨⟨_, rfl, by simp [IntParam.isVar, IntParam.str]⟩, 0, _, by simp [FTy.absParams, IntParam.isVar],
      by simp [Ty.getParameters], .inl rfl⟩
  | scale n p n' v' s' p' =>
    exact ⟨⟨_, rfl, by simp [IntParam.isVar, IntParam.str]⟩, 1, _, by simp [FTy.absParams, IntParam.isVar],
      by simp [Ty.getParameters], .inl rfl⟩
  | _ => simp [FTy.IsFlat] at hf

theorem ofInt32_inj {a b : Int32} (h : Int64.ofInt a.toInt = Int64.ofInt b.toInt) : a = b := by
  have h1 := congrArg Int64.toInt h
  have ra := Int32.le_toInt a
  have rb := Int32.le_toInt b
  have sa := Int32.toInt_lt a
  have sb := Int32.toInt_lt b
  rw [Int64.toInt_ofInt_of_le (by omega) (by omega), Int64.toInt_ofInt_of_le (by omega) (by omega)] at h1
  exact Int32.toInt_inj.1 h1

/-- C65 for two different parameters that are single-parameter types or decimals. Missing: integer
parameters nested in other types (`C65_negation_nested`), and one parameter that uses a variable twice
(`C65_negation`). -/
theorem C65_integers_partial {nh : NullHandling} {params : List FuncParam}
    {variadic : Option Variadic} {args args' : List Ty}
    (h : matchArguments nh params variadic args = .ok (true, args')) :
    ∀ i j d e t u x a b, i ≠ j → CallAt params (args.take params.length) i d t →
      CallAt params (args.take params.length) j e u → d.IsFlat → e.IsFlat →
      IntAt x d t a → IntAt x e u b → a = b := by
  obtain ⟨args1, defs, _, hadm, htouch, _, hdefs, heach, hfin⟩ := match_true h
  have hf := funcDefs_ok hdefs
  have at' : ∀ i d t, CallAt params (args.take params.length) i d t → defs[i]? = some d ∧
      ∃ t1, args1[i]? = some t1 ∧ Touched t t1 := by
    rintro i d t ⟨⟨p, hp, hd⟩, ht⟩
    rw [List.getElem?_take] at ht
    split at ht
    · rename_i hi
      have := paramFor_defs hf hp hd
      unfold paramFor at this
      rw [← hf.length_eq, if_pos hi] at this
      exact ⟨this, forall₂_get htouch i t ht⟩
    · cases ht
  have wlog : ∀ i j d e t u x a b, i < j → CallAt params (args.take params.length) i d t →
      CallAt params (args.take params.length) j e u → d.IsFlat → e.IsFlat →
      IntAt x d t a → IntAt x e u b → a = b := by
    intro i j d e t u x a b hij hc hc' hd he hx hx'
    obtain ⟨hdi, t1, ht1, htt⟩ := at' i d t hc
    obtain ⟨hej, u1, hu1, huu⟩ := at' j e u hc'
    have intTouch : ∀ {x p t t1 c}, IntAt x p t c → p.IsFlat → Touched t t1 → IntAt x p t1 c := by
      rintro x p t t1 c h hp ⟨n, rfl⟩
      cases h with
      | prec k n n' v' q => cases k <;> exact .prec ..
      | fixed => exact .fixed ..
      | precision => exact .precision ..
      | scale => exact .scale ..
      | _ => simp [FTy.IsFlat] at hp
    obtain ⟨⟨l, hl, hxl⟩, k, v, hk, hv, hvc⟩ := flat_intAt (intTouch hx hd htt) hd
    obtain ⟨⟨l', hl', hxl'⟩, k', v', hk', hv', hvc'⟩ := flat_intAt (intTouch hx' he huu) he
    rcases hfin with ⟨_, hs, _⟩ | ⟨hs, _⟩
    · unfold areSyncMatching at hs
      cases hb : buildNameValueMap defs args1 .empty with
      | err => simp [hb] at hs
      | panic => simp [hb] at hs
      | ok st =>
        obtain ⟨_, h2⟩ := buildMap_spec defs args1 .empty st hb
        have e1 := h2 i d t1 hdi ht1 k x v hk hv
        have e2 := h2 j e u1 hej hu1 k' x v' hk' hv'
        rw [e1] at e2
        simp at e2
        subst e2
        rcases hvc with rfl | rfl <;> rcases hvc' with h | h <;> simp at h
        · exact ofInt32_inj h
        · exact h
    · have := hasSync_true defs [] false hs ⟨j, e, l', x, hej, hl', hxl', .inr ⟨i, d, l, hij, hdi, hl, hxl⟩⟩
      cases this
  intro i j d e t u x a b hij hc hc' hd he hx hx'
  rcases Nat.lt_or_gt_of_ne hij with hlt | hgt
  · exact wlog i j d e t u x a b hlt hc hc' hd he hx hx'
  · exact (wlog j i e d u t x b a hgt hc' hc he hd hx' hx).symm

/-- a call accepted because both decimals have precision 10 and scale 2 -/
example : matchArguments .mirror
    [.value (.decimal 2 (.var "P") (.var "S")), .value (.decimal 2 (.var "P") (.var "S"))] none
    [.decimal 2 0 2 10, .decimal 1 0 2 10] = .ok (true, [.decimal 2 0 2 10, .decimal 1 0 2 10]) := by
  simp [matchArguments, matchCount, funcDefs, matchEach, matchArgumentAtCommon, Res.index,
    FTy.matchLoose, hasSyncParams, FTy.leaves, IntParam.isVar, IntParam.str, IntParam.isCompatible,
    areSyncMatching, buildNameValueMap, FTy.absParams, Ty.getParameters, bindNames, GoMap.get_set,
    GVal.same]

/-- C65 is false as stated: `decimal<P,P>` accepts a decimal of precision 10 and scale 2. -/
theorem C65_negation : ¬ C65_statement := by
  intro h
  have := h .mirror [.value (.decimal 2 (.var "P") (.var "P"))] none [.decimal 2 0 2 10]
    [.decimal 2 0 2 10] (by
      simp [matchArguments, matchCount, funcDefs, matchEach, matchArgumentAtCommon, Res.index,
        FTy.matchLoose, hasSyncParams, FTy.leaves, IntParam.isVar, IntParam.str,
        IntParam.isCompatible, validateAny, expandParams, bindAnyTypesList, bindAnyTypes,
        touchAnyList, touchAny])
  have := this 0 0 (.decimal 2 (.var "P") (.var "P")) (.decimal 2 (.var "P") (.var "P"))
    (.decimal 2 0 2 10) (.decimal 2 0 2 10) "P" 10 2
    ⟨⟨_, rfl, rfl⟩, rfl⟩ ⟨⟨_, rfl, rfl⟩, rfl⟩ (.precision ..) (.scale ..)
  exact absurd this (by decide)

/-- ... and `list<decimal<P,S>>` with `decimal<P,S>` accepts different decimals. -/
theorem C65_negation_nested : ¬ C65_statement := by
  intro h
  have := h .mirror [.value (.list 2 (.decimal 2 (.var "P") (.var "S"))),
      .value (.decimal 2 (.var "P") (.var "S"))] none
    [.list 2 0 (.decimal 2 0 2 10), .decimal 2 0 3 12] [.list 2 0 (.decimal 2 0 2 10), .decimal 2 0 3 12] (by
      simp [matchArguments, matchCount, funcDefs, matchEach, matchArgumentAtCommon, Res.index,
        FTy.matchLoose, hasSyncParams, FTy.leaves, FTy.hasParam, IntParam.isVar, IntParam.str,
        IntParam.isCompatible, areSyncMatching, buildNameValueMap, FTy.absParams, Ty.getParameters,
        bindNames, GoMap.get_set])
  have := this 0 1 (.list 2 (.decimal 2 (.var "P") (.var "S"))) (.decimal 2 (.var "P") (.var "S"))
    (.list 2 0 (.decimal 2 0 2 10)) (.decimal 2 0 3 12) "P" 10 12
    ⟨⟨_, rfl, rfl⟩, rfl⟩ ⟨⟨_, rfl, rfl⟩, rfl⟩ (.list _ _ _ _ _ _ (.precision ..)) (.precision ..)
  exact absurd this (by decide)

/-! ## C62 Compatible calls are accepted -/

/-- C62 in full: with an admissible number of compatible arguments that agree about type variables,
integer variables and, if demanded, the type of the variadic arguments, a call is accepted. -/
def C62_statement : Prop :=
  ∀ (N : String → UInt32 → Prop) (nh : NullHandling) (params : List FuncParam)
    (variadic : Option Variadic) (args : List Ty),
    (nh = .mirror ∨ nh = .declaredOutput ∨ nh = .discrete) → (∀ t ∈ args, t.Argument) →
    (∀ p ∈ params, p.declared.isSome ∨ ∃ x os, p = .enum x os) →
    Admissible params.length variadic args.length →
    (∀ (i : Nat) (t : Ty), args[i]? = some t →
      ∃ p, paramFor params i = some p ∧ ParamFits N (nh = .discrete) p t) →
    SameVariables params args → SameIntegers params args →
    (∀ v, variadic = some v → v.consistent = true → SameVariadic params.length args) →
    ∃ args', matchArguments nh params variadic args = .ok (true, args')

/-- C62 for parameters without user-defined types, if the call does not have more arguments than one
above the upper limit, and integer variables that parameters share are in all components of a type or
in none, of one sort, and no variadic argument is left out. Missing: more arguments, all of them
refused (`C62_negation`), integer variables in some of the components (`C62_negation_struct`) or of two
sorts (`C62_negation_sorts`), and as in C27 user-defined types, and under DISCRETE function types and
consistent interval_day arguments. -/
theorem C62_accepts_partial {N : String → UInt32 → Prop} {nh : NullHandling}
    {params : List FuncParam} {variadic : Option Variadic} {args : List Ty}
    (hnh : nh = .mirror ∨ nh = .declaredOutput ∨ nh = .discrete) (ha : ∀ t ∈ args, t.Argument)
    (hp : ∀ p ∈ params, (∃ d, p.declared = some d ∧ d.NoUdt ∧ (nh = .discrete → d.Plain)) ∨
      ∃ x os, p = .enum x os)
    (hadm : Admissible params.length variadic args.length)
    (hfit : ∀ (i : Nat) (t : Ty), args[i]? = some t →
      ∃ p, paramFor params i = some p ∧ ParamFits N (nh = .discrete) p t)
    (hany : SameVariables params args)
    (hint : NoSharedInts params ∨ SameIntegers params args ∧ OneSort params ∧
      (∀ p ∈ params, ∀ d, p.declared = some d → d.Even) ∧ params.length ≤ args.length)
    (hmax : ∀ v, variadic = some v → v.max = 0 ∨ (args.length : Int) ≤ v.max + 1)
    (hcons : ∀ v, variadic = some v → v.consistent = true → SameVariadic params.length args ∧
      (nh = .discrete → ∀ t ∈ args, ¬ t.IsDayInterval)) :
    ∃ args', matchArguments nh params variadic args = .ok (true, args') := by
  -- the counts
  have hcount : ∃ args1, matchCount params variadic args = .ok (true, args1) := by
    unfold matchCount
    cases variadic with
    | none => exact ⟨args, by simp only [Admissible] at hadm; simp [hadm]⟩
    | some v =>
      simp only [Admissible] at hadm
      have hn : ¬ ((decide (params.length = 0) || decide (args.length < params.length - 1)) = true) := by
        simp only [Bool.or_eq_true, decide_eq_true_eq, not_or]; omega
      obtain ⟨b, rest', hv, hb⟩ := validateVariadic_spec v (args.drop (params.length - 1))
        (fun t ht => ha t (List.mem_of_mem_drop ht))
      have hbt : b = true := by
        refine hb.2 ⟨?_, ?_⟩
        · simp only [Variadic.validCount, Bool.and_eq_true, decide_eq_true_eq, Bool.or_eq_true,
            List.length_drop]
          have e : ((args.length - (params.length - 1) : Nat) : Int)
            = (args.length : Int) - ((params.length : Int) - 1) := by omega
          rw [e]
          exact ⟨by omega, by omega⟩
        · intro hc a rest hd t ht
          have hs := (hcons v rfl hc).1
          have get : ∀ (m : Nat) (u : Ty), (a :: rest)[m]? = some u →
              args[params.length - 1 + ((max (v.min - 1) 0).toNat + m)]? = some u := by
            intro m u hm
            rw [← hd, List.getElem?_drop, List.getElem?_drop] at hm
            exact hm
          obtain ⟨m, hm⟩ := List.mem_iff_getElem?.1 ht
          exact hs _ _ a t (by omega) (by omega) (get 0 a (by simp)) (get (m + 1) t (by simpa using hm))
      subst hbt
      refine ⟨args.take (params.length - 1) ++ rest', ?_⟩
      show (if _ then _ else _) = _
      rw [if_neg hn, hv]
      rfl
  obtain ⟨args1, hcount⟩ := hcount
  obtain ⟨_, htouch, hsame⟩ := matchCount_true hcount
  -- the definitions
  obtain ⟨defs, hdefs⟩ := funcDefs_total params (by
    intro p hpm
    rcases hp p hpm with ⟨d, hd, _⟩ | ⟨x, os, rfl⟩
    · rw [declared_def hd]; rfl
    · rfl)
  have hf := funcDefs_ok hdefs
  have hlen : variadic = none → args1.length = defs.length := by
    rintro rfl
    simp only [Admissible] at hadm
    rw [← htouch.length_eq, ← hf.length_eq]; exact hadm
  have hne : variadic.isSome → defs ≠ [] := by
    intro hs he
    cases variadic with
    | none => simp at hs
    | some v =>
      simp only [Admissible] at hadm
      have := hf.length_eq
      rw [he] at this
      simp at this
      rw [this] at hadm
      simp at hadm
  -- the arguments one by one
  have heach : matchEach nh defs variadic 0 args1 = .ok true := by
    refine matchEach_ok args1 0 (fun e => by rw [hlen e]; omega)
      (fun v e => by have := hmax v e; rw [← htouch.length_eq]; simpa using this) ?_
    intro i t1 ht1
    obtain ⟨t, ht, htt⟩ := forall₂_get' htouch i t1 ht1
    obtain ⟨p, hpf, hfits⟩ := hfit i t ht
    have hmem : p ∈ params := by
      unfold paramFor at hpf
      split at hpf
      · exact List.mem_of_getElem? hpf
      · exact List.mem_of_getLast? hpf
    have hacc : ∀ d, p.def? = some d → accepts nh d t1 = true := by
      intro d hd
      have hloose : d.matchLoose t = true := by
        cases p with
        | value d' =>
          simp [FuncParam.def?] at hd; subst hd
          simp only [ParamFits] at hfits
          refine fits_matchLoose (I := SameInteger) ?_ d' t hfits
          intro i j hij
          simp only [SameInteger] at hij
          apply Int32.toInt_inj.1
          rw [Int64.toInt_toInt32, hij]
          have h1 := Int32.le_toInt i
          have h2 := Int32.toInt_lt i
          rw [Int.bmod_eq_of_le (by omega) (by omega)]
        | enum x os =>
          simp [FuncParam.def?] at hd; subst hd
          obtain ⟨c, n, v, x', os', rfl, hc⟩ := hfits
          rcases hc with hc | hc <;> simp [commonEnum, FTy.matchLoose, enumMatches, hc]
        | type => simp [FuncParam.def?] at hd
        | missing => simp [FuncParam.def?] at hd
      rcases hnh with rfl | rfl | rfl
      · simpa [accepts, matchLoose_touched htt] using hloose
      · simpa [accepts, matchLoose_touched htt] using hloose
      · have e : t1 = t := by
          cases hvar : variadic with
          | none =>
            have := hsame (by simp [hvar])
            subst this
            rw [ht] at ht1; simpa using ht1.symm
          | some v =>
            cases hc : v.consistent with
            | false =>
              have := hsame (by intro w hw; rw [hvar] at hw; cases hw; exact hc)
              subst this
              rw [ht] at ht1; simpa using ht1.symm
            | true => exact touched_id htt ((hcons v hvar hc).2 rfl t (List.mem_of_getElem? ht))
        subst e
        simp only [accepts]
        cases p with
        | value d' =>
          simp [FuncParam.def?] at hd; subst hd
          rcases hp _ hmem with ⟨d'', hd'', _, hpl⟩ | ⟨x, os, he⟩
          · simp [FuncParam.declared] at hd''; subst hd''
            refine (C61_strict_exact_partial N d' t1 (hpl rfl)).2 ?_
            simpa only [ParamFits] using hfits
          · cases he
        | enum x os =>
          simp [FuncParam.def?] at hd; subst hd
          obtain ⟨c, n, v, x', os', rfl, hc⟩ := hfits
          rcases ha _ (List.mem_of_getElem? ht) with hpl | he
          · simp [Ty.PlanType] at hpl
          · cases he
            simp [commonEnum, FTy.matchStrict, FTy.matchLoose, enumMatches, Ty.nullability]
        | type => simp [FuncParam.def?] at hd
        | missing => simp [FuncParam.def?] at hd
    have : ∃ d, paramFor defs i = some d ∧ p.def? = some d := by
      have hl := hf.length_eq
      unfold paramFor at hpf ⊢
      rw [← hl]
      split at hpf
      · rename_i hi
        simp only [hi, if_true]
        exact forall₂_get hf i p hpf
      · rename_i hi
        simp only [hi, if_false]
        rw [List.getLast?_eq_getElem?] at *
        rw [← hl]
        exact forall₂_get hf _ p hpf
    obtain ⟨d, hd1, hd2⟩ := this
    exact ⟨d, by simpa using hd1, hacc d hd2⟩
  -- no shared integers
  have hno : ∀ d ∈ defs, d.NoUdt := by
    intro d hdm
    obtain ⟨i, hi⟩ := List.mem_iff_getElem?.1 hdm
    obtain ⟨p, hpi, hpd⟩ := forall₂_get' hf i d hi
    rcases hp _ (List.mem_of_getElem? hpi) with ⟨d', hd', hn, _⟩ | ⟨x, os, rfl⟩
    · rw [declared_def hd'] at hpd
      simp at hpd; subst hpd; exact hn
    · simp [FuncParam.def?] at hpd; subst hpd; simp [commonEnum, FTy.NoUdt]
  obtain ⟨sync, hsync⟩ := hasSync_total defs [] hno
  cases sync with
  | true =>
    rcases hint with hint | ⟨hint, hsort, heven, hle⟩
    · exact absurd (hasSync_false defs [] true (defs_pairwise hf hint) (by simp) hsync) (by simp)
    have decl : ∀ (i : Nat) (d : FTy), defs[i]? = some d → d.Even ∧ ∀ x (j : Nat), d.absParams[j]? = some (.int (.var x)) →
        ∃ p ∈ params, paramFor params i = some p ∧ p.declared = some d := by
      intro i d hd
      obtain ⟨p, hpi, hpd⟩ := forall₂_get' hf i d hd
      have hpm := List.mem_of_getElem? hpi
      have hpf : paramFor params i = some p := by
        unfold paramFor
        rw [if_pos (List.getElem?_eq_some_iff.1 hpi).1, hpi]
      cases p with
      | value d' =>
        simp [FuncParam.def?] at hpd; subst hpd
        exact ⟨heven _ hpm _ rfl, fun _ _ _ => ⟨_, hpm, hpf, rfl⟩⟩
      | enum =>
        simp [FuncParam.def?] at hpd; subst hpd
        exact ⟨trivial, fun x j hx => by simp [commonEnum, FTy.absParams] at hx⟩
      | type => simp [FuncParam.def?] at hpd
      | missing => simp [FuncParam.def?] at hpd
    have loose : ∀ (i : Nat) (d : FTy) (t1 : Ty), defs[i]? = some d → args1[i]? = some t1 → d.matchLoose t1 = true := by
      intro i d t1 hd ht1
      obtain ⟨d', hd', hacc⟩ := matchEach_true heach i t1 ht1
      have hi := (List.getElem?_eq_some_iff.1 hd).1
      simp only [Nat.zero_add, paramFor, hi, if_true, hd, Option.some.injEq] at hd'
      subst hd'
      rcases hnh with rfl | rfl | rfl
      · exact hacc
      · exact hacc
      · exact strict_loose _ _ hacc
    have getP : ∀ {t t1 : Ty}, Touched t t1 → t1.getParameters = t.getParameters := by
      rintro t _ ⟨n, rfl⟩
      cases t with
      | prec k => cases k <;> rfl
      | _ => rfl
    have hW := buildMap_within
      (W := fun x v => ∃ (i : Nat) (d : FTy) (t : Ty) (j : Nat), defs[i]? = some d ∧ args[i]? = some t ∧
        d.matchLoose t = true ∧ d.absParams[j]? = some (.int (.var x)) ∧ t.getParameters[j]? = some v) (by
        rintro x v w ⟨i, d, t, a, hd, ht, hm, hx, hv⟩ ⟨j, e, u, b, he, hu, hm', hx', hw⟩
        obtain ⟨hev, hdec⟩ := decl i d hd
        obtain ⟨hev', hdec'⟩ := decl j e he
        obtain ⟨p, hpm, hpf, hpd⟩ := hdec x a hx
        obtain ⟨q, hqm, hqf, hqd⟩ := hdec' x b hx'
        have c1 : CallAt params args i d t := ⟨⟨p, hpf, hpd⟩, ht⟩
        have c2 : CallAt params args j e u := ⟨⟨q, hqf, hqd⟩, hu⟩
        have r1 := absParams_intAt (hno d (List.mem_of_getElem? hd)) hev hm hx hv
        have r2 := absParams_intAt (hno e (List.mem_of_getElem? he)) hev' hm' hx' hw
        rcases r1 with ⟨k, n, c, rfl, rfl, i1⟩ | ⟨s1, c, rfl, i1⟩ <;>
          rcases r2 with ⟨k', n', c', rfl, rfl, i2⟩ | ⟨s2, c', rfl, i2⟩
        · simpa [GVal.same] using hint _ _ _ _ _ _ _ _ _ c1 c2 i1 i2
        · obtain ⟨f1, f2, f3⟩ := hsort p hpm q hqm k n x hpd
          rcases s2 with ⟨_, _, rfl⟩ | ⟨_, _, rfl⟩ | ⟨_, _, rfl⟩
          · exact absurd hqd (f1 _ _)
          · exact absurd hqd (f2 _ _)
          · exact absurd hqd (f3 _ _)
        · obtain ⟨f1, f2, f3⟩ := hsort q hqm p hpm k' n' x hqd
          rcases s1 with ⟨_, _, rfl⟩ | ⟨_, _, rfl⟩ | ⟨_, _, rfl⟩
          · exact absurd hpd (f1 _ _)
          · exact absurd hpd (f2 _ _)
          · exact absurd hpd (f3 _ _)
        · simp [GVal.same, hint _ _ _ _ _ _ _ _ _ c1 c2 i1 i2])
      defs args1 .empty (by rw [← htouch.length_eq, ← hf.length_eq]; exact hle) (by simp) (by
        intro i d t1 hd ht1
        have hm := loose i d t1 hd ht1
        refine ⟨absParams_length (hno d (List.mem_of_getElem? hd)) (decl i d hd).1 hm, ?_⟩
        intro j x v hx hv
        obtain ⟨t, ht, htt⟩ := forall₂_get' htouch i t1 ht1
        exact ⟨i, d, t, j, hd, ht, (matchLoose_touched htt).symm.trans hm, hx, by rw [← getP htt]; exact hv⟩)
    obtain ⟨st, hst⟩ := hW
    refine ⟨args1, ?_⟩
    unfold matchArguments
    simp [hcount, hdefs, heach, hsync, areSyncMatching, hst]
  | false =>
    -- type variables
    obtain ⟨ds, hds⟩ := expand_total (args := args1) hne
    have hbind := bindAnyTypesList_within
      (R := fun x s => ∃ (i : Nat) (d : FTy) (t1 : Ty), paramFor defs i = some d ∧ args1[i]? = some t1 ∧
        AnyAt x d t1 s ∧ x ≠ "any") (by
        rintro x s s' ⟨i, d, t1, hd, ht1, hx, hne⟩ ⟨j, e, u1, he, hu1, hx', _⟩
        have back : ∀ i d t1 s, paramFor defs i = some d → args1[i]? = some t1 → AnyAt x d t1 s →
            ∃ t s0, CallAt params args i d t ∧ AnyAt x d t s0 ∧ s.SameBut s0 := by
          intro i d t1 s hd ht1 hx
          obtain ⟨t, ht, htt⟩ := forall₂_get' htouch i t1 ht1
          obtain ⟨s0, hs0, hss⟩ := anyAt_touched hx (touched_symm htt)
          obtain ⟨p, hpp, hpd⟩ := paramFor_forall₂ hf i d hd
          refine ⟨t, s0, ⟨⟨p, hpp, ?_⟩, ht⟩, hs0, hss⟩
          cases p with
          | value d' => simp [FuncParam.def?] at hpd; subst hpd; rfl
          | enum => simp [FuncParam.def?] at hpd; subst hpd; unfold commonEnum at hx; cases hx
          | type => simp [FuncParam.def?] at hpd
          | missing => simp [FuncParam.def?] at hpd
        obtain ⟨t, s0, c1, a1, b1⟩ := back i d t1 s hd ht1 hx
        obtain ⟨u, s0', c2, a2, b2⟩ := back j e u1 s' he hu1 hx'
        exact sameBut_trans b1 (sameBut_trans (hany i j d e t u x s0 s0' c1 c2 a1 a2 hne) (sameBut_symm b2)))
      (by
        rintro x s ⟨i, d, t1, _, ht1, hx, _⟩
        obtain ⟨t, ht, htt⟩ := forall₂_get' htouch i t1 ht1
        exact anyAt_argument hx (touched_argument htt (ha t (List.mem_of_getElem? ht))))
      ds args1 .empty (within_empty _) (by
        intro i p t hpi hti x s hx hne
        have := expand_get hds hlen i (List.getElem?_eq_some_iff.1 hti).1
        rw [hpi] at this
        exact ⟨i, p, t, this.symm, hti, hx, hne⟩)
    obtain ⟨b, hb, _⟩ := hbind
    refine ⟨touchAnyList (anyUsesList ds args1) ds args1, ?_⟩
    unfold matchArguments
    simp [hcount, hdefs, heach, hsync, validateAny, hds, hb]

/-- a call meeting the hypotheses -/
example :
    let params := [FuncParam.enum "part" ["YEAR", "MONTH"], .value (.list 2 (.any 2 "any1")),
      .value (.any 2 "any1")]
    let args := [Ty.enum true 0 0 "" [], .list 1 0 (.prim .i8 2 0), .prim .i8 1 0]
    (∀ t ∈ args, t.Argument) ∧ Admissible params.length (some ⟨1, 0, false⟩) args.length ∧
    (∀ (i : Nat) (t : Ty), args[i]? = some t →
      ∃ p, paramFor params i = some p ∧
        ParamFits (fun _ _ => True) (NullHandling.mirror = .discrete) p t) ∧ NoSharedInts params := by
  refine ⟨by simp [Ty.Argument, Ty.PlanType], by simp [Admissible], ?_, ?_⟩
  · intro i t ht
    match i, ht with
    | 0, ht =>
      simp at ht; subst ht
      exact ⟨_, rfl, true, 0, 0, "", [], rfl, .inl rfl⟩
    | 1, ht =>
      simp at ht; subst ht
      exact ⟨_, rfl, .list _ _ _ _ _ (by simp) (.any _ _ _ (by simp))⟩
    | 2, ht =>
      simp at ht; subst ht
      exact ⟨_, rfl, .any _ _ _ (by simp)⟩
    | n + 3, ht => simp at ht
  · simp [NoSharedInts, FuncParam.intNames, FuncParam.declared, FTy.intNames]

/-- a call meeting the hypotheses about shared integer variables and the upper limit: two decimals of
the same precision and scale, and one more -/
example :
    let params := [FuncParam.value (.decimal 2 (.var "P") (.var "S")), .value (.decimal 2 (.var "P") (.var "S"))]
    let args := [Ty.decimal 2 0 2 10, .decimal 1 0 2 10, .decimal 2 0 2 10]
    (∃ args', matchArguments .mirror params (some ⟨1, 2, false⟩) args = .ok (true, args')) ∧
    ¬ NoSharedInts params := by
  intro params args
  have call : ∀ {i : Nat} {d : FTy} {t : Ty}, CallAt params args i d t →
      d = .decimal 2 (.var "P") (.var "S") ∧ ∃ n, t = .decimal n 0 2 10 := by
    rintro i d t ⟨⟨p, hp, hd⟩, ht⟩
    match i, hp, ht with
    | 0, hp, ht =>
      simp [params, paramFor] at hp; simp [args] at ht; subst hp ht
      simp [FuncParam.declared] at hd; exact ⟨hd.symm, _, rfl⟩
    | 1, hp, ht =>
      simp [params, paramFor] at hp; simp [args] at ht; subst hp ht
      simp [FuncParam.declared] at hd; exact ⟨hd.symm, _, rfl⟩
    | 2, hp, ht =>
      simp [params, paramFor] at hp; simp [args] at ht; subst hp ht
      simp [FuncParam.declared] at hd; exact ⟨hd.symm, _, rfl⟩
    | n + 3, hp, ht => simp [args] at ht
  refine ⟨C62_accepts_partial (N := fun _ _ => True) (.inl rfl) (by simp [args, Ty.Argument, Ty.PlanType])
    (by simp [params, FuncParam.declared, FTy.NoUdt]) (by simp [params, args, Admissible]) ?_ ?_
    (.inr ⟨?_, ?_, ?_, by simp [params, args]⟩) (by simp [args]) (by simp), ?_⟩
  · intro i t ht
    match i, ht with
    | 0, ht => simp [args] at ht; subst ht; exact ⟨_, rfl, .decimal _ _ _ _ _ _ _ (by simp) trivial trivial⟩
    | 1, ht => simp [args] at ht; subst ht; exact ⟨_, rfl, .decimal _ _ _ _ _ _ _ (by simp) trivial trivial⟩
    | 2, ht => simp [args] at ht; subst ht; exact ⟨_, rfl, .decimal _ _ _ _ _ _ _ (by simp) trivial trivial⟩
    | n + 3, ht => simp [args] at ht
  · intro i j d e t u x s r c1 _ hx
    obtain ⟨rfl, _⟩ := call c1
    cases hx
  · intro i j d e t u x a b c1 c2 hx hx'
    obtain ⟨rfl, n, rfl⟩ := call c1
    obtain ⟨rfl, m, rfl⟩ := call c2
    have key : ∀ n x a, IntAt x (.decimal 2 (.var "P") (.var "S")) (.decimal n 0 2 10) a →
        x = "P" ∧ a = 10 ∨ x = "S" ∧ a = 2 := by
      intro n x a h
      cases h
      · exact .inl ⟨rfl, rfl⟩
      · exact .inr ⟨rfl, rfl⟩
    rcases key _ _ _ hx with ⟨rfl, rfl⟩ | ⟨rfl, rfl⟩ <;> rcases key _ _ _ hx' with ⟨h, rfl⟩ | ⟨h, rfl⟩ <;>
      simp at h ⊢
  · simp [OneSort, params, FuncParam.declared]
  · simp [params, FuncParam.declared, FTy.Even]
  · simp [params, NoSharedInts, FuncParam.intNames, FuncParam.declared, FTy.intNames, IntParam.str]

/-- C62 is false as stated: the position of an argument in the whole call is compared with the maximum
number of variadic arguments, so three fixed parameters and one allowed variadic argument reject every
call. -/
theorem C62_negation : ¬ C62_statement := by
  intro h
  obtain ⟨args', h⟩ := h (fun _ _ => True) .mirror
    [.value (.prim .i32 2 0), .value (.prim .i32 2 0), .value (.prim .i32 2 0)] (some ⟨1, 1, false⟩)
    [.prim .i32 2 0, .prim .i32 2 0, .prim .i32 2 0] (.inl rfl) (by simp [Ty.Argument, Ty.PlanType])
    (by simp [FuncParam.declared]) (by simp [Admissible])
    (by
      intro i t ht
      match i, ht with
      | 0, ht => simp at ht; subst ht; exact ⟨_, rfl, .prim _ _ _ _ _ (by simp)⟩
      | 1, ht => simp at ht; subst ht; exact ⟨_, rfl, .prim _ _ _ _ _ (by simp)⟩
      | 2, ht => simp at ht; subst ht; exact ⟨_, rfl, .prim _ _ _ _ _ (by simp)⟩
      | n + 3, ht => simp at ht)
    (by
      rintro i j d e t u x s r ⟨⟨p, hp, hd⟩, ht⟩ _ hx
      match i, hp, ht with
      | 0, hp, ht => simp [paramFor] at hp; subst hp; simp [FuncParam.declared] at hd; subst hd; cases hx
      | 1, hp, ht => simp [paramFor] at hp; subst hp; simp [FuncParam.declared] at hd; subst hd; cases hx
      | 2, hp, ht => simp [paramFor] at hp; subst hp; simp [FuncParam.declared] at hd; subst hd; cases hx
      | n + 3, hp, ht => simp at ht)
    (by
      rintro i j d e t u x a b ⟨⟨p, hp, hd⟩, ht⟩ _ hx
      match i, hp, ht with
      | 0, hp, ht => simp [paramFor] at hp; subst hp; simp [FuncParam.declared] at hd; subst hd; cases hx
      | 1, hp, ht => simp [paramFor] at hp; subst hp; simp [FuncParam.declared] at hd; subst hd; cases hx
      | 2, hp, ht => simp [paramFor] at hp; subst hp; simp [FuncParam.declared] at hd; subst hd; cases hx
      | n + 3, hp, ht => simp at ht)
    (by simp)
  simp [matchArguments, matchCount, validateVariadic, Variadic.validCount, funcDefs, matchEach,
    matchArgumentAtCommon, Variadic.validPosition, Res.index, FTy.matchLoose] at h

/-- ... and an integer variable shared between a struct with a further field and another parameter makes
every call fail. -/
theorem C62_negation_struct : ¬ C62_statement := by
  intro h
  obtain ⟨args', h⟩ := h (fun _ _ => True) .mirror
    [.value (.struct 2 [.single (.fixed .varChar) 2 (.var "L"), .prim .i32 2 0]),
      .value (.single (.fixed .varChar) 2 (.var "L"))] none
    [.struct 2 0 [.fixed .varChar 2 0 5, .prim .i32 2 0], .fixed .varChar 2 0 5] (.inl rfl)
    (by simp [Ty.Argument, Ty.PlanType, Ty.PlanTypeList])
    (by simp [FuncParam.declared]) (by simp [Admissible])
    (by
      intro i t ht
      match i, ht with
      | 0, ht =>
        simp at ht; subst ht
        exact ⟨_, rfl, .struct _ _ _ _ _ (by simp) (.cons _ _ _ _ (.fixed _ _ _ _ _ _ (by simp) trivial)
          (.cons _ _ _ _ (.prim _ _ _ _ _ (by simp)) .nil))⟩
      | 1, ht => simp at ht; subst ht; exact ⟨_, rfl, .fixed _ _ _ _ _ _ (by simp) trivial⟩
      | n + 2, ht => simp at ht)
    (by
      rintro i j d e t u x s r ⟨⟨p, hp, hd⟩, ht⟩ _ hx
      match i, hp, ht with
      | 0, hp, ht =>
        simp [paramFor] at hp; subst hp; simp [FuncParam.declared] at hd; subst hd
        cases hx with
        | struct _ _ _ _ _ _ k p t hp ht hx =>
          match k, hp with
          | 0, hp => simp at hp; subst hp; cases hx
          | 1, hp => simp at hp; subst hp; cases hx
          | n + 2, hp => simp at hp
      | 1, hp, ht => simp [paramFor] at hp; subst hp; simp [FuncParam.declared] at hd; subst hd; cases hx
      | n + 2, hp, ht => simp at ht)
    (by
      have key : ∀ i d t x a, CallAt
          [.value (.struct 2 [.single (.fixed .varChar) 2 (.var "L"), .prim .i32 2 0]),
            .value (.single (.fixed .varChar) 2 (.var "L"))]
          [.struct 2 0 [.fixed .varChar 2 0 5, .prim .i32 2 0], .fixed .varChar 2 0 5] i d t →
          IntAt x d t a → a = 5 := by
        rintro i d t x a ⟨⟨p, hp, hd⟩, ht⟩ hx
        match i, hp, ht with
        | 0, hp, ht =>
          simp [paramFor] at hp; subst hp; simp [FuncParam.declared] at hd; subst hd
          simp at ht; subst ht
          cases hx with
          | struct _ _ _ _ _ _ k p t hp ht hx =>
            match k, hp, ht with
            | 0, hp, ht => simp at hp ht; subst hp ht; cases hx; rfl
            | 1, hp, ht => simp at hp; subst hp; cases hx
            | n + 2, hp, ht => simp at hp
        | 1, hp, ht =>
          simp [paramFor] at hp; subst hp; simp [FuncParam.declared] at hd; subst hd
          simp at ht; subst ht; cases hx; rfl
        | n + 2, hp, ht => simp at ht
      intro i j d e t u x a b hc hc' hx hx'
      rw [key i d t x a hc hx, key j e u x b hc' hx'])
    (by simp)
  simp [matchArguments, matchCount, funcDefs, matchEach, matchArgumentAtCommon, Res.index,
    FTy.matchLoose, FTy.matchLooseList, singleMatches, IntParam.isCompatible, hasSyncParams,
    FTy.leaves, FTy.leavesList, IntParam.isVar, IntParam.str, areSyncMatching, buildNameValueMap,
    FTy.absParams, FTy.hasParam, Ty.getParameters, List.filter] at h

/-- ... and so does an integer variable that is a length in one parameter and the precision of a
timestamp in another. -/
theorem C62_negation_sorts : ¬ C62_statement := by
  intro h
  have call : ∀ {i : Nat} {d : FTy} {t : Ty}, CallAt
      [.value (.single (.fixed .varChar) 2 (.var "L")), .value (.single (.prec .precisionTimestamp) 2 (.var "L"))]
      [.fixed .varChar 2 0 6, .prec .precisionTimestamp 2 0 6] i d t →
      (d = .single (.fixed .varChar) 2 (.var "L") ∧ t = .fixed .varChar 2 0 6) ∨
        d = .single (.prec .precisionTimestamp) 2 (.var "L") ∧ t = .prec .precisionTimestamp 2 0 6 := by
    rintro i d t ⟨⟨p, hp, hd⟩, ht⟩
    match i, hp, ht with
    | 0, hp, ht =>
      simp [paramFor] at hp; simp at ht; subst hp ht
      simp [FuncParam.declared] at hd; exact .inl ⟨hd.symm, rfl⟩
    | 1, hp, ht =>
      simp [paramFor] at hp; simp at ht; subst hp ht
      simp [FuncParam.declared] at hd; exact .inr ⟨hd.symm, rfl⟩
    | n + 2, hp, ht => simp at ht
  obtain ⟨args', h⟩ := h (fun _ _ => True) .mirror
    [.value (.single (.fixed .varChar) 2 (.var "L")), .value (.single (.prec .precisionTimestamp) 2 (.var "L"))] none
    [.fixed .varChar 2 0 6, .prec .precisionTimestamp 2 0 6] (.inl rfl)
    (by simp [Ty.Argument, Ty.PlanType]) (by simp [FuncParam.declared]) (by simp [Admissible])
    (by
      intro i t ht
      match i, ht with
      | 0, ht => simp at ht; subst ht; exact ⟨_, rfl, .fixed _ _ _ _ _ _ (by simp) trivial⟩
      | 1, ht => simp at ht; subst ht; exact ⟨_, rfl, .prec _ _ _ _ _ _ (by simp) trivial⟩
      | n + 2, ht => simp at ht)
    (by
      intro i j d e t u x s r c1 _ hx
      rcases call c1 with ⟨rfl, _⟩ | ⟨rfl, _⟩ <;> cases hx)
    (by
      intro i j d e t u x a b c1 c2 hx hx'
      rcases call c1 with ⟨rfl, rfl⟩ | ⟨rfl, rfl⟩ <;> rcases call c2 with ⟨rfl, rfl⟩ | ⟨rfl, rfl⟩ <;>
        cases hx <;> cases hx' <;> rfl)
    (by simp)
  simp [matchArguments, matchCount, funcDefs, matchEach, matchArgumentAtCommon, Res.index,
    FTy.matchLoose, singleMatches, IntParam.isCompatible, hasSyncParams, GoMap.get_set, bindNames, GVal.same,
    FTy.leaves, IntParam.isVar, IntParam.str, areSyncMatching, buildNameValueMap,
    FTy.absParams, FTy.hasParam, Ty.getParameters, List.filter] at h

/-! ## C69 -/

/-- C69: `ResolveType` yields a type only for argument types that `Match` accepts. -/
theorem C69_only_matching (anchor : String → UInt32) (nh : NullHandling) (ret : FTy) (params : List FuncParam)
    (variadic : Option Variadic) (args : List Ty) (t : Ty)
    (h : evaluateTypeExpression anchor nh ret params variadic args = .ok t) :
    ∃ args', matchArguments nh params variadic args = .ok (true, args') := by
  simp only [evaluateTypeExpression] at h
  split at h
  · cases h
  · simp only [Res.bind_eq_ok] at h
    obtain ⟨_, _, _, _, r, hr, h⟩ := h
    split at h
    · cases h
    · rename_i hb
      obtain ⟨b, a⟩ := r
      simp only [Bool.not_eq_true', Bool.not_eq_false] at hb
      subst hb
      exact ⟨a, hr⟩

/-- `add(i32, i64)` does not match `add(i32, i32)` -/
example : evaluateTypeExpression (fun _ => 0) .mirror (.prim .i32 2 0)
    [.value (.prim .i32 2 0), .value (.prim .i32 2 0)] none [.prim .i32 2 0, .prim .i64 2 0] = .err := by
  simp [evaluateTypeExpression, countOk, isConsistent, validateTypes, validateType, Ty.nullability,
    matchArguments, matchCount, funcDefs, matchEach, matchArgumentAtCommon, Res.index, FTy.matchLoose]

example : evaluateTypeExpression (fun _ => 0) .mirror (.prim .boolean 2 0)
    [.value (.prim .i32 2 0)] none [.prim .i32 2 0] = .ok (.prim .boolean 2 0) := by
  simp [evaluateTypeExpression, countOk, isConsistent, validateTypes, validateType, Ty.nullability,
    matchArguments, matchCount, Ty.withNullability, funcDefs, matchEach, matchArgumentAtCommon,
    Res.index, FTy.matchLoose, hasSyncParams, FTy.leaves, validateAny,
    expandParams, bindAnyTypesList, bindAnyTypes, touchAnyList, touchAny,
    FuncParam.typeExpression, FTy.returnType, NullabilityRequired]

end Verif

import Verif.Props.Variants
/-!
# Arguments one at a time: C116
-/

namespace Verif

/-- Some call with an admissible number of arguments has an argument at this position. -/
def HasPosition (nparams : Nat) (variadic : Option Variadic) (pos : Int) : Prop :=
  ∃ nargs : Nat, Admissible nparams variadic nargs ∧ 0 ≤ pos ∧ pos < nargs

/-- C116 in full: `MatchAt` answers yes exactly for the types that a declared parameter at a position
that calls can have is compatible with, a negative position is an error, and each argument of a call
accepted by `Match` is accepted at its position. -/
def C116_statement : Prop :=
  ∀ (N : String → UInt32 → Prop) (nh : NullHandling) (params : List FuncParam) (variadic : Option Variadic),
    (nh = .mirror ∨ nh = .declaredOutput ∨ nh = .discrete) →
    (∀ p ∈ params, p.declared.isSome ∨ ∃ x os, p = .enum x os) →
    (∀ (t : Ty) (pos : Int), t.Argument → pos < 0 → matchArgumentAt t pos nh params variadic = .err) ∧
    (∀ (t : Ty) (pos : Int), t.Argument → 0 ≤ pos → ∃ b, matchArgumentAt t pos nh params variadic = .ok b ∧
      (b = true ↔ HasPosition params.length variadic pos ∧
        ∃ p, paramFor params pos.toNat = some p ∧ ParamFits N (nh = .discrete) p t)) ∧
    ∀ (args args' : List Ty), matchArguments nh params variadic args = .ok (true, args') →
      ∀ (i : Nat) (t : Ty), args[i]? = some t → matchArgumentAt t i nh params variadic = .ok true

/-- C116, negative positions: an error, whatever the function and the type. -/
theorem C116_negative (t : Ty) (pos : Int) (nh : NullHandling) (params : List FuncParam)
    (variadic : Option Variadic) (h : pos < 0) : matchArgumentAt t pos nh params variadic = .err := by
  simp [matchArgumentAt, h]

-- e.g.
example : matchArgumentAt (.prim .i32 2 0) (-1) .mirror [.value (.prim .i32 2 0)] none = .err :=
  C116_negative _ _ _ _ _ (by decide)

/-- C116, functions with a parameter that is no value and no enum: no argument is accepted at any position, and
no call is. -/
theorem C116_undeclared {nh : NullHandling} {params : List FuncParam} {p : FuncParam} (hp : p ∈ params)
    (hd : p.declared = none) (he : ∀ x os, p ≠ .enum x os) (variadic : Option Variadic) :
    (∀ (t : Ty) (pos : Int), 0 ≤ pos → matchArgumentAt t pos nh params variadic = .ok false) ∧
    ∀ (args args' : List Ty), matchArguments nh params variadic args ≠ .ok (true, args') := by
  have key : funcDefs params = .err := by
    induction params with
    | nil => simp at hp
    | cons q qs ih =>
      cases q with
      | type => rfl
      | missing => rfl
      | value t =>
        rcases List.mem_cons.1 hp with rfl | hp
        · simp [FuncParam.declared] at hd
        · simp [funcDefs, ih hp]
      | enum x os =>
        rcases List.mem_cons.1 hp with rfl | hp
        · exact absurd rfl (he x os)
        · simp [funcDefs, ih hp]
  refine ⟨fun t pos hpos => ?_, fun args args' h => ?_⟩
  · rw [matchArgumentAt, if_neg (by omega), key]
  · obtain ⟨_, _, _, _, _, _, h, _⟩ := match_true h
    rw [key] at h
    cases h

-- e.g. a function of a type
example : matchArgumentAt (.prim .i32 2 0) 0 .mirror [.value (.prim .i32 2 0), .type (.any 2 "any1")] none =
    .ok false :=
  (C116_undeclared (p := .type (.any 2 "any1")) (by simp) rfl (by simp) none).1 _ _ (by decide)

/-- what acceptance means for one argument -/
theorem accepts_fits (N : String → UInt32 → Prop) {nh : NullHandling}
    (hnh : nh = .mirror ∨ nh = .declaredOutput ∨ nh = .discrete) {p : FuncParam} {d : FTy} {t : Ty}
    (hd : p.def? = some d) (ht : t.Argument)
    (hp : (∃ d, p.declared = some d ∧ d.NoUdt ∧ (nh = .discrete → d.Plain)) ∨ ∃ x os, p = .enum x os) :
    accepts nh d t = true ↔ ParamFits N (nh = .discrete) p t := by
  cases p with
  | value d' =>
    simp [FuncParam.def?] at hd; subst hd
    rcases hp with ⟨d'', hd'', hnu, hpl⟩ | ⟨x, os, he⟩
    · simp [FuncParam.declared] at hd''; subst hd''
      rcases hnh with rfl | rfl | rfl
      · simpa [accepts, ParamFits] using C61_loose_exact_partial N d' t hnu
      · simpa [accepts, ParamFits] using C61_loose_exact_partial N d' t hnu
      · simpa [accepts, ParamFits] using C61_strict_exact_partial N d' t (hpl rfl)
    · cases he
  | enum x os =>
    simp [FuncParam.def?] at hd; subst hd
    constructor
    · intro h
      refine enum_fits ?_
      rcases hnh with rfl | rfl | rfl
      · exact h
      · exact h
      · exact strict_loose _ _ h
    · rintro ⟨c, n, v, x', os', rfl, hc⟩
      rcases ht with hpl | he
      · simp [Ty.PlanType] at hpl
      · cases he
        rcases hnh with rfl | rfl | rfl <;>
          simp [accepts, commonEnum, FTy.matchStrict, FTy.matchLoose, enumMatches, Ty.nullability]
  | type => simp [FuncParam.def?] at hd
  | missing => simp [FuncParam.def?] at hd

/-- one argument, taken apart -/
theorem matchAt_spec {t : Ty} {pos : Nat} {nh : NullHandling} {defs : List FTy} {variadic : Option Variadic}
    (hnh : nh = .mirror ∨ nh = .declaredOutput ∨ nh = .discrete)
    (hne : variadic.isSome → defs ≠ []) :
    ∃ b, matchArgumentAtCommon t pos nh defs variadic = .ok b ∧
      (b = true ↔ (variadic = none → pos < defs.length) ∧
        (∀ v, variadic = some v → v.max = 0 ∨ pos ≤ v.max) ∧
        ∃ p, paramFor defs pos = some p ∧ accepts nh p t = true) := by
  have key : (variadic = none → pos < defs.length) → ∃ p, paramFor defs pos = some p ∧
      (if pos < defs.length then Res.index defs pos else Res.index defs ((defs.length : Int) - 1)) = .ok p := by
    intro h
    by_cases hl : pos < defs.length
    · refine ⟨defs[pos], by simp [paramFor, hl], ?_⟩
      rw [if_pos hl, Res.index_eq_ok]
      exact ⟨by omega, by simp [hl]⟩
    · have : defs ≠ [] := hne (by
        cases variadic with
        | none => exact absurd (h rfl) hl
        | some => rfl)
      refine ⟨defs.getLast this, by simp [paramFor, hl, List.getLast?_eq_some_getLast this], ?_⟩
      rw [if_neg hl, index_last]
      exact List.getLast?_eq_some_getLast this
  unfold matchArgumentAtCommon
  cases variadic with
  | none =>
    by_cases h1 : defs.length ≤ pos
    · refine ⟨false, by simp [h1], ?_⟩
      simp only [Bool.false_eq_true, forall_const, false_iff]
      rintro ⟨h, _⟩
      omega
    · obtain ⟨p, hp, e⟩ := key (fun _ => by omega)
      refine ⟨accepts nh p t, ?_, ?_⟩
      · simp only [h1, decide_false, Bool.false_eq_true, if_false, e, Res.ok_bind]
        rcases hnh with rfl | rfl | rfl <;> rfl
      · simp [hp]; omega
  | some v =>
    by_cases h1 : v.max = 0 ∨ pos ≤ v.max
    · obtain ⟨p, hp, e⟩ := key (by simp)
      have h2 : v.validPosition pos = true := by
        simp only [Variadic.validPosition, Bool.and_eq_true, decide_eq_true_eq, Bool.or_eq_true]
        omega
      refine ⟨accepts nh p t, ?_, ?_⟩
      · simp only [h2, Bool.not_true, Bool.false_eq_true, if_false, e, Res.ok_bind]
        rcases hnh with rfl | rfl | rfl <;> rfl
      · simp [hp, h1]
    · have h2 : v.validPosition pos = false := by
        simp only [Variadic.validPosition, Bool.and_eq_false_iff, decide_eq_false_iff_not, Bool.or_eq_false_iff]
        omega
      refine ⟨false, by simp [h2], ?_⟩
      simp only [Bool.false_eq_true, false_iff]
      rintro ⟨_, h, _⟩
      exact h1 (h v rfl)

/-- C116, one argument: the answer of `MatchAt`. Missing: variadic functions with an upper limit unless
they have two parameters (`C116_negation_first`, `C116_negation_refused`) or without parameters
(`C116_negation_panic`), and as in C27 user-defined types, and under DISCRETE function types. -/
theorem C116_exact_partial (N : String → UInt32 → Prop) {nh : NullHandling} {params : List FuncParam}
    {variadic : Option Variadic} {t : Ty} {pos : Int}
    (hnh : nh = .mirror ∨ nh = .declaredOutput ∨ nh = .discrete) (ht : t.Argument) (hpos : 0 ≤ pos)
    (hp : ∀ p ∈ params, (∃ d, p.declared = some d ∧ d.NoUdt ∧ (nh = .discrete → d.Plain)) ∨
      ∃ x os, p = .enum x os)
    (hv : ∀ v, variadic = some v → params ≠ [] ∧ (v.max = 0 ∨ v.min ≤ v.max ∧ 0 < v.max ∧ params.length = 2)) :
    ∃ b, matchArgumentAt t pos nh params variadic = .ok b ∧
      (b = true ↔ HasPosition params.length variadic pos ∧
        ∃ p, paramFor params pos.toNat = some p ∧ ParamFits N (nh = .discrete) p t) := by
  obtain ⟨pos, rfl⟩ := Int.eq_ofNat_of_zero_le hpos
  obtain ⟨defs, hdefs⟩ := funcDefs_total params (by
    intro p hpm
    rcases hp p hpm with ⟨d, hd, _⟩ | ⟨x, os, rfl⟩
    · rw [declared_def hd]; rfl
    · rfl)
  have hf := funcDefs_ok hdefs
  have hl := hf.length_eq
  obtain ⟨b, hb, hb'⟩ := matchAt_spec (t := t) (pos := pos) (defs := defs) (variadic := variadic) hnh (by
    intro hs e
    cases variadic with
    | none => simp at hs
    | some v => exact (hv v rfl).1 (List.eq_nil_of_length_eq_zero (by rw [hl, e]; rfl)))
  refine ⟨b, ?_, ?_⟩
  · simp only [matchArgumentAt, hdefs]
    rw [if_neg (by omega)]
    simpa using hb
  · rw [hb']
    have hfits : (∃ d, paramFor defs pos = some d ∧ accepts nh d t = true) ↔
        ∃ p, paramFor params pos = some p ∧ ParamFits N (nh = .discrete) p t := by
      constructor
      · rintro ⟨d, hd, hacc⟩
        obtain ⟨p, hpp, hpd⟩ := paramFor_forall₂ hf pos d hd
        have hmem : p ∈ params := by
          unfold paramFor at hpp
          split at hpp
          · exact List.mem_of_getElem? hpp
          · exact List.mem_of_getLast? hpp
        exact ⟨p, hpp, (accepts_fits N hnh hpd ht (hp p hmem)).1 hacc⟩
      · rintro ⟨p, hpp, hfit⟩
        have hmem : p ∈ params := by
          unfold paramFor at hpp
          split at hpp
          · exact List.mem_of_getElem? hpp
          · exact List.mem_of_getLast? hpp
        have : ∃ d, paramFor defs pos = some d ∧ p.def? = some d := by
          unfold paramFor at hpp ⊢
          rw [← hl]
          split at hpp
          · rename_i hi
            simp only [hi, if_true]
            exact forall₂_get hf pos p hpp
          · rename_i hi
            simp only [hi, if_false]
            rw [List.getLast?_eq_getElem?] at *
            rw [← hl]
            exact forall₂_get hf _ p hpp
        obtain ⟨d, hd, hpd⟩ := this
        exact ⟨d, hd, (accepts_fits N hnh hpd ht (hp p hmem)).2 hfit⟩
    simp only [Int.toNat_natCast, hfits]
    rw [← and_assoc]
    refine and_congr_left fun _ => ?_
    unfold HasPosition
    cases variadic with
    | none => simp [Admissible, hl]
    | some v =>
      obtain ⟨h1, h2⟩ := hv v rfl
      have h1 : 1 ≤ params.length := by
        cases params with
        | nil => exact absurd rfl h1
        | cons => simp
      simp only [reduceCtorEq, false_implies, true_and, Option.some.injEq, forall_eq', Admissible]
      constructor
      · intro h
        rcases h2 with h2 | ⟨h2, h3, h4⟩
        · exact ⟨params.length + pos + v.min.toNat, ⟨h1, by omega, by omega, .inl h2⟩, by omega, by omega⟩
        · exact ⟨v.max.toNat + 1, ⟨h1, by omega, by omega, .inr (by omega)⟩, by omega, by omega⟩
      · rintro ⟨n, ⟨_, _, _, h5⟩, _, h6⟩
        omega

-- a separator and strings to join, at most three of them: the fourth position is the last
example : (∃ b, matchArgumentAt (.prim .string 1 0) 3 .mirror
      [.value (.prim .i32 2 0), .value (.prim .string 2 0)] (some ⟨1, 3, true⟩) = .ok b ∧ b = true) ∧
    ∃ b, matchArgumentAt (.prim .string 1 0) 4 .mirror
      [.value (.prim .i32 2 0), .value (.prim .string 2 0)] (some ⟨1, 3, true⟩) = .ok b ∧ b = false := by
  obtain ⟨b, h, hb⟩ := C116_exact_partial (fun _ _ => True) (nh := .mirror)
    (params := [.value (.prim .i32 2 0), .value (.prim .string 2 0)]) (variadic := some ⟨1, 3, true⟩)
    (t := .prim .string 1 0) (pos := 3) (.inl rfl) (by simp [Ty.Argument, Ty.PlanType]) (by decide)
    (by simp [FuncParam.declared, FTy.NoUdt]) (by simp)
  obtain ⟨c, h', hc⟩ := C116_exact_partial (fun _ _ => True) (nh := .mirror)
    (params := [.value (.prim .i32 2 0), .value (.prim .string 2 0)]) (variadic := some ⟨1, 3, true⟩)
    (t := .prim .string 1 0) (pos := 4) (.inl rfl) (by simp [Ty.Argument, Ty.PlanType]) (by decide)
    (by simp [FuncParam.declared, FTy.NoUdt]) (by simp)
  refine ⟨⟨b, h, hb.2 ⟨⟨4, by simp [Admissible], by decide, by decide⟩, _, rfl, .prim _ _ _ _ _ (by simp)⟩⟩,
    c, h', ?_⟩
  cases c with
  | false => rfl
  | true =>
    obtain ⟨⟨n, hn, _, h1⟩, _⟩ := hc.1 rfl
    simp [Admissible] at hn
    omega

/-- all arguments are accepted exactly if each is -/
theorem matchEach_each {nh : NullHandling} {defs : List FTy} {variadic : Option Variadic} :
    ∀ {args : List Ty} {pos : Nat}, matchEach nh defs variadic pos args = .ok true →
      ∀ (i : Nat) (t : Ty), args[i]? = some t → matchArgumentAtCommon t (pos + i) nh defs variadic = .ok true
  | [], pos, _, i, t, ht => by simp at ht
  | a :: args, pos, h, i, t, ht => by
    simp only [matchEach, Res.bind_eq_ok] at h
    obtain ⟨b, h1, h2⟩ := h
    cases b with
    | false => simp at h2
    | true =>
      simp only [if_true] at h2
      cases i with
      | zero => simp at ht; subst ht; simpa using h1
      | succ i =>
        have := matchEach_each h2 i t (by simpa using ht)
        simpa [Nat.add_assoc, Nat.add_comm 1 i] using this

/-- C116, whole calls: each argument of an accepted call is accepted at its position. Missing: under
DISCRETE, variadic functions that want equal types called with interval_day arguments
(`C116_negation_interval`). -/
theorem C116_each_partial {nh : NullHandling} {params : List FuncParam} {variadic : Option Variadic}
    {args args' : List Ty} (h : matchArguments nh params variadic args = .ok (true, args'))
    (hv : nh = .discrete → ∀ v, variadic = some v → v.consistent = true → ∀ t ∈ args, ¬ t.IsDayInterval)
    (i : Nat) (t : Ty) (ht : args[i]? = some t) : matchArgumentAt t i nh params variadic = .ok true := by
  obtain ⟨args1, defs, _, hadm, htouch, hsame, hdefs, heach, _⟩ := match_true h
  obtain ⟨t1, ht1, htt⟩ := forall₂_get htouch i t ht
  have h1 := matchEach_each heach i t1 ht1
  rw [Nat.zero_add] at h1
  simp only [matchArgumentAt, hdefs]
  rw [if_neg (by omega)]
  rw [Int.toNat_natCast]
  by_cases hd : nh = .discrete
  · have e : t1 = t := by
      cases hvar : variadic with
      | none =>
        have := hsame (by simp [hvar])
        subst this
        rw [ht] at ht1; simpa using ht1.symm
      | some v =>
        cases hc : v.consistent with
        | false =>
          have := hsame (by intro w hw; rw [hvar] at hw; cases hw; exact hc)
          subst this
          rw [ht] at ht1; simpa using ht1.symm
        | true => exact touched_id htt (hv hd v hvar hc t (List.mem_of_getElem? ht))
    rw [← e]; exact h1
  · have e : ∀ p : FTy, accepts nh p t1 = accepts nh p t := by
      intro p
      cases nh with
      | discrete => exact absurd rfl hd
      | mirror => exact matchLoose_touched htt
      | declaredOutput => exact matchLoose_touched htt
      | unset => rfl
      | other => rfl
    rw [← h1]
    unfold matchArgumentAtCommon
    simp only
    cases nh with
    | discrete => exact absurd rfl hd
    | mirror => simp only [show ∀ p : FTy, p.matchLoose t1 = p.matchLoose t from e]
    | declaredOutput => simp only [show ∀ p : FTy, p.matchLoose t1 = p.matchLoose t from e]
    | unset => rfl
    | other => rfl

-- e.g. each of three integers for a variadic sum
example (i : Nat) (h : i < 3) : matchArgumentAt (.prim .i32 2 0) i .mirror [.value (.prim .i32 2 0)]
    (some ⟨1, 0, true⟩) = .ok true :=
  C116_each_partial (args := [.prim .i32 2 0, .prim .i32 2 0, .prim .i32 2 0])
    (args' := [.prim .i32 2 0, .prim .i32 2 0, .prim .i32 2 0]) (by
    simp [matchArguments, matchCount, validateVariadic, Variadic.validCount, consistentFrom,
      Ty.equals, Ty.withNullability, Ty.afterWithNullability, Ty.nullability, funcDefs, matchEach,
      matchArgumentAtCommon, Variadic.validPosition, Res.index, FTy.matchLoose, hasSyncParams, FTy.leaves,
      validateAny, expandParams, bindAnyTypesList, bindAnyTypes, touchAnyList, touchAny]) (by simp) i _ (by
    match i, h with
    | 0, _ => rfl
    | 1, _ => rfl
    | 2, _ => rfl)

/-- C116, the other way: a call with an admissible number of arguments, each accepted by `MatchAt` at its
position, is accepted by `Match` if the arguments agree where the declaration demands it. Missing: as in
C62, integer variables in some of the components of a type or of two sorts, user-defined types, and
under DISCRETE function types and consistent interval_day arguments. -/
theorem C116_together_partial {nh : NullHandling} {params : List FuncParam}
    {variadic : Option Variadic} {args : List Ty}
    (hnh : nh = .mirror ∨ nh = .declaredOutput ∨ nh = .discrete) (ha : ∀ t ∈ args, t.Argument)
    (hp : ∀ p ∈ params, (∃ d, p.declared = some d ∧ d.NoUdt ∧ (nh = .discrete → d.Plain)) ∨
      ∃ x os, p = .enum x os)
    (hadm : Admissible params.length variadic args.length)
    (heach : ∀ (i : Nat) (t : Ty), args[i]? = some t → matchArgumentAt t i nh params variadic = .ok true)
    (hany : SameVariables params args)
    (hint : NoSharedInts params ∨ SameIntegers params args ∧ OneSort params ∧
      (∀ p ∈ params, ∀ d, p.declared = some d → d.Even) ∧ params.length ≤ args.length)
    (hcons : ∀ v, variadic = some v → v.consistent = true → SameVariadic params.length args ∧
      (nh = .discrete → ∀ t ∈ args, ¬ t.IsDayInterval)) :
    ∃ args', matchArguments nh params variadic args = .ok (true, args') := by
  obtain ⟨defs, hdefs⟩ := funcDefs_total params (by
    intro p hpm
    rcases hp p hpm with ⟨d, hd, _⟩ | ⟨x, os, rfl⟩
    · rw [declared_def hd]; rfl
    · rfl)
  have hf := funcDefs_ok hdefs
  have hne : variadic.isSome → defs ≠ [] := by
    intro hs e
    cases variadic with
    | none => simp at hs
    | some v =>
      simp only [Admissible] at hadm
      have := hf.length_eq
      rw [e] at this
      simp only [List.length_nil] at this
      omega
  have at' : ∀ (i : Nat) (t : Ty), args[i]? = some t →
      (∀ v, variadic = some v → v.max = 0 ∨ i ≤ v.max) ∧
      ∃ d, paramFor defs i = some d ∧ accepts nh d t = true := by
    intro i t ht
    have h := heach i t ht
    simp only [matchArgumentAt, hdefs] at h
    rw [if_neg (by omega), Int.toNat_natCast] at h
    obtain ⟨b, hb, hb'⟩ := matchAt_spec (t := t) (pos := i) (variadic := variadic) hnh hne
    rw [hb] at h
    simp at h
    exact (hb'.1 h).2
  refine C62_accepts_partial (N := fun _ _ => True) hnh ha hp hadm ?_ hany hint ?_ hcons
  · intro i t ht
    obtain ⟨_, d, hd, hacc⟩ := at' i t ht
    obtain ⟨p, hpp, hpd⟩ := paramFor_forall₂ hf i d hd
    have hmem : p ∈ params := by
      unfold paramFor at hpp
      split at hpp
      · exact List.mem_of_getElem? hpp
      · exact List.mem_of_getLast? hpp
    exact ⟨p, hpp, (accepts_fits _ hnh hpd (ha t (List.mem_of_getElem? ht)) (hp p hmem)).1 hacc⟩
  · intro v hv
    cases hl : args.length with
    | zero => subst hv; simp only [Admissible, hl] at hadm; omega
    | succ n =>
      have hn : n < args.length := by omega
      have := (at' n args[n] (by simp [hn])).1 v hv
      omega

-- a call meeting the hypotheses
example : ∃ args', matchArguments .mirror [.value (.prim .i32 2 0), .value (.prim .string 2 0)]
    (some ⟨1, 3, true⟩) [.prim .i32 1 0, .prim .string 2 0, .prim .string 1 0] = .ok (true, args') := by
  refine C116_together_partial (.inl rfl) (by simp [Ty.Argument, Ty.PlanType])
    (by simp [FuncParam.declared, FTy.NoUdt]) (by simp [Admissible]) ?_ ?_ (.inl ?_) ?_
  · intro i t ht
    match i, ht with
    | 0, ht => simp at ht; subst ht; decide +kernel
    | 1, ht => simp at ht; subst ht; decide +kernel
    | 2, ht => simp at ht; subst ht; decide +kernel
    | n + 3, ht => simp at ht
  · rintro i j d e t u x s r ⟨⟨p, hp, hd⟩, ht⟩ _ hx
    match i, hp, ht with
    | 0, hp, ht => simp [paramFor] at hp; subst hp; simp [FuncParam.declared] at hd; subst hd; cases hx
    | 1, hp, ht => simp [paramFor] at hp; subst hp; simp [FuncParam.declared] at hd; subst hd; cases hx
    | 2, hp, ht => simp [paramFor] at hp; subst hp; simp [FuncParam.declared] at hd; subst hd; cases hx
    | n + 3, hp, ht => simp at ht
  · simp [NoSharedInts, FuncParam.intNames, FuncParam.declared, FTy.intNames]
  · intro v hv _
    refine ⟨?_, by simp⟩
    intro i j t u hi hj ht hu
    match i, j, ht, hu with
    | 0, _, _, _ => simp at hi
    | _, 0, _, _ => simp at hj
    | 1, 1, ht, hu => simp at ht hu; subst ht hu; rfl
    | 1, 2, ht, hu => simp at ht hu; subst ht hu; rfl
    | 2, 1, ht, hu => simp at ht hu; subst ht hu; rfl
    | 2, 2, ht, hu => simp at ht hu; subst ht hu; rfl
    | n + 3, _, ht, _ => simp at ht
    | _, n + 3, _, hu => simp at hu

/-- C116 is false as stated: the position of an argument in the whole call is compared with the maximum
number of variadic arguments, so with one parameter and at most one argument the second position is
accepted too ... -/
theorem C116_negation_first : ¬ C116_statement := by
  intro h
  obtain ⟨b, h1, h2⟩ := (h (fun _ _ => True) .mirror [.value (.prim .i32 2 0)] (some ⟨1, 1, false⟩) (.inl rfl)
    (by simp [FuncParam.declared])).2.1 (.prim .i32 2 0) 1 (by simp [Ty.Argument, Ty.PlanType]) (by decide)
  have : b = true := by
    simpa [matchArgumentAt, funcDefs, matchArgumentAtCommon, Variadic.validPosition, Res.index,
      FTy.matchLoose] using h1.symm
  obtain ⟨⟨n, hn, _, hlt⟩, _⟩ := h2.1 this
  simp [Admissible] at hn
  omega

/-- ... with three parameters and at most one argument for the last, the last is refused ... -/
theorem C116_negation_refused : ¬ C116_statement := by
  intro h
  obtain ⟨b, h1, h2⟩ := (h (fun _ _ => True) .mirror
    [.value (.prim .i32 2 0), .value (.prim .i32 2 0), .value (.prim .i32 2 0)] (some ⟨1, 1, false⟩) (.inl rfl)
    (by simp [FuncParam.declared])).2.1 (.prim .i32 2 0) 2 (by simp [Ty.Argument, Ty.PlanType]) (by decide)
  have : b = false := by
    simpa [matchArgumentAt, funcDefs, matchArgumentAtCommon, Variadic.validPosition, Res.index,
      FTy.matchLoose] using h1.symm
  subst this
  exact absurd (h2.2 ⟨⟨3, by simp [Admissible], by decide, by decide⟩, _, rfl, .prim _ _ _ _ _ (by simp)⟩) (by simp)

/-- ... a variadic function without parameters panics ... -/
theorem C116_negation_panic : ¬ C116_statement := by
  intro h
  obtain ⟨b, h1, _⟩ := (h (fun _ _ => True) .mirror [] (some ⟨0, 0, false⟩) (.inl rfl)
    (by simp)).2.1 (.prim .i32 2 0) 0 (by simp [Ty.Argument, Ty.PlanType]) (by decide)
  simp [matchArgumentAt, funcDefs, matchArgumentAtCommon, Variadic.validPosition, Res.index] at h1

/-- ... and under DISCRETE nullability the nullable interval_day accepted by `Match` (C27) is refused at
its position. -/
theorem C116_negation_interval : ¬ C116_statement := by
  intro h
  have := (h (fun _ _ => True) .discrete [.value (.single (.prec .intervalDay) 2 (.var "P"))]
    (some ⟨1, 0, true⟩) (.inr (.inr rfl)) (by simp [FuncParam.declared])).2.2
    [.prec .intervalDay 2 0 6, .prec .intervalDay 1 0 6] [.prec .intervalDay 2 0 6, .prec .intervalDay 2 0 6] (by
    simp [matchArguments, matchCount, validateVariadic, Variadic.validCount, consistentFrom,
      Ty.equals, Ty.withNullability, Ty.afterWithNullability, Ty.nullability, funcDefs, matchEach,
      matchArgumentAtCommon, Variadic.validPosition, Res.index, FTy.matchStrict, FTy.matchLoose,
      singleMatches, IntParam.isCompatible, hasSyncParams, FTy.leaves, IntParam.isVar, IntParam.str,
      validateAny, expandParams, bindAnyTypesList, bindAnyTypes, touchAnyList, touchAny]) 1
    (.prec .intervalDay 1 0 6) rfl
  simp [matchArgumentAt, funcDefs, matchArgumentAtCommon, Variadic.validPosition, Res.index,
    FTy.matchStrict, FTy.matchLoose, singleMatches, IntParam.isCompatible, FTy.nullability, Ty.nullability] at this

end Verif

import Verif.Lemmas.Expr
/-!
# Properties of expressions: equality (C18), switch types (C19), if-then construction (C54)
-/

namespace Verif

/-! ## C18 -/

/-- The property in full: for expressions in which nothing is missing, `Equals` returns, and is
reflexive, symmetric and transitive, and equal expressions agree in everything but what `canon`
forgets. False: see `C18_negation`. -/
def C18_statement : Prop :=
  ∀ sh : Sharing, sh.Sound → ∀ a b : Expr, (∃ ar, a.Regular ar) → (∃ ar, b.Regular ar) →
    ∃ r, Expr.equals sh a b = .ok r ∧ (r = true ↔ a.canon = b.canon)

/-- C18, missing: scalar functions with one anchor and different argument counts. `Equals` returns,
and answers whether the two expressions have the same contents. -/
theorem C18_equals_partial (sh : Sharing) (hs : sh.Sound) (ar : UInt32 → Nat) (a b : Expr)
    (ha : a.Regular ar) (hb : b.Regular ar) :
    ∃ r, Expr.equals sh a b = .ok r ∧ (r = true ↔ a.canon = b.canon) :=
  expr_equals_spec hs a b ha (.inr hb)

/-- C18, same restriction: an equivalence relation. -/
theorem C18_equivalence_partial (sh : Sharing) (hs : sh.Sound) (ar : UInt32 → Nat) :
    (∀ a : Expr, a.Regular ar → Expr.equals sh a a = .ok true) ∧
    (∀ a b : Expr, a.Regular ar → b.Regular ar → Expr.equals sh a b = Expr.equals sh b a) ∧
    (∀ a b c : Expr, a.Regular ar → b.Regular ar → c.Regular ar →
      Expr.equals sh a b = .ok true → Expr.equals sh b c = .ok true →
      Expr.equals sh a c = .ok true) := by
  refine ⟨fun a ha => ?_, fun a b ha hb => ?_, fun a b c ha hb hc h1 h2 => ?_⟩
  · obtain ⟨r, e, h⟩ := C18_equals_partial sh hs ar a a ha ha
    rw [e, h.2 rfl]
  · obtain ⟨r, e, h⟩ := C18_equals_partial sh hs ar a b ha hb
    obtain ⟨r', e', h'⟩ := C18_equals_partial sh hs ar b a hb ha
    rw [e, e']
    congr 1
    rw [Bool.eq_iff_iff, h, h']
    exact eq_comm
  · obtain ⟨r, e, h⟩ := C18_equals_partial sh hs ar a b ha hb
    obtain ⟨r', e', h'⟩ := C18_equals_partial sh hs ar b c hb hc
    obtain ⟨r'', e'', h''⟩ := C18_equals_partial sh hs ar a c ha hc
    rw [e] at h1; rw [e'] at h2; rw [e'']
    injection h1 with h1; injection h2 with h2
    rw [h''.2 ((h.1 h1).trans (h'.1 h2))]

/-- Comparing with nil answers false. -/
theorem C18_nil (sh : Sharing) (a : Expr) (ha : a.isNil = false) :
    Expr.equals sh a .nil = .ok false := by
  cases a <;> simp [Expr.equals, Expr.isNil] at *

/-- C18, same restriction: equal function calls name the same function and agree in argument
count, arguments, options and output type. -/
theorem C18_scalar_partial (sh : Sharing) (hs : sh.Sound) (ar : UInt32 → Nat) (a a' : FnAttrs)
    (args args' : List EArg) (h : (Expr.scalar a args).Regular ar)
    (h' : (Expr.scalar a' args').Regular ar)
    (he : Expr.equals sh (.scalar a args) (.scalar a' args') = .ok true) :
    a.funcRef = a'.funcRef ∧ a.options = a'.options ∧ a.outputType.Same a'.outputType ∧
      args.length = args'.length ∧ EArg.canonList args = EArg.canonList args' := by
  obtain ⟨r, e, hr⟩ := C18_equals_partial sh hs ar _ _ h h'
  rw [he] at e
  injection e with e
  have := hr.1 e.symm
  simp [Expr.canon, FnAttrs.canon] at this
  exact ⟨this.1.1, this.1.2.1, this.1.2.2, len_of_acanon this.2, this.2⟩

/-- Equal window calls agree in function, arguments, options, output type, phase, invocation, both
bounds, sorts and partitions (the bounds type is missing, see `C18_negation_boundsType`). -/
theorem C18_window_partial (sh : Sharing) (hs : sh.Sound) (ar : UInt32 → Nat) (a a' : FnAttrs)
    (w w' : WinAttrs) (args args' : List EArg) (ss ss' : List ESort) (ps ps' : List Expr)
    (h : (Expr.window a w args ss ps).Regular ar) (h' : (Expr.window a' w' args' ss' ps').Regular ar)
    (he : Expr.equals sh (.window a w args ss ps) (.window a' w' args' ss' ps') = .ok true) :
    a.funcRef = a'.funcRef ∧ a.options = a'.options ∧ a.outputType.Same a'.outputType ∧
      w.phase = w'.phase ∧ w.invocation = w'.invocation ∧ w.lower = w'.lower ∧ w.upper = w'.upper ∧
      EArg.canonList args = EArg.canonList args' ∧ ESort.canonList ss = ESort.canonList ss' ∧
      Expr.canonList ps = Expr.canonList ps' := by
  obtain ⟨r, e, hr⟩ := C18_equals_partial sh hs ar _ _ h h'
  rw [he] at e
  injection e with e
  have := hr.1 e.symm
  simp [Expr.canon, FnAttrs.canon, WinAttrs.canon] at this
  obtain ⟨⟨h1, h2, h3⟩, ⟨h4, h5, h6, h7⟩, h8, h9, h10⟩ := this
  exact ⟨h1, h2, h3, h4, h5, h6, h7, h8, h9, h10⟩

/-! ### Where it fails -/

/-- Nothing is shared: every pointer comparison of distinct objects fails. -/
def noSharing : Sharing := ⟨fun _ _ => false, fun _ _ => false⟩

theorem noSharing_sound : noSharing.Sound := by simp [Sharing.Sound, noSharing]

/-- a variadic function -/
def exVarFn : FnAttrs := ⟨1, "concat", [], .prim .i32 NullabilityRequired 0⟩
/-- the literal 7 -/
def exSeven : Expr := .lit (.prim (.int32 7) (.prim .i32 NullabilityRequired 0))

/-- One call has an argument more: in one direction `Equals` answers true, in the other it
panics. -/
theorem C18_negation_arguments :
    Expr.equals noSharing (.scalar exVarFn [.expr exSeven])
      (.scalar exVarFn [.expr exSeven, .expr exSeven]) = .ok true ∧
    Expr.equals noSharing (.scalar exVarFn [.expr exSeven, .expr exSeven])
      (.scalar exVarFn [.expr exSeven]) = .panic := by
  constructor <;>
  simp [Expr.equals, exVarFn, exSeven, Ty.equals, EArg.equalsLoop, EArg.equals, noSharing,
    Lit.equals, PVal.goEq]

theorem C18_negation : ¬ C18_statement := by
  intro h
  have := h noSharing noSharing_sound (.scalar exVarFn [.expr exSeven, .expr exSeven])
    (.scalar exVarFn [.expr exSeven]) ⟨fun _ => 2, ?_⟩ ⟨fun _ => 1, ?_⟩
  · obtain ⟨r, e, _⟩ := this
    rw [C18_negation_arguments.2] at e
    cases e
  all_goals simp [Expr.Regular, exVarFn, exSeven, Ty.PlanType, EArg.RegularList, EArg.Regular,
    Lit.Regular, PVal.Comparable]

/-- An if-then without default (as decoded from a message without one) equals the one with a
default, but not the other way round. -/
theorem C18_negation_ifThen :
    Expr.equals noSharing (.ifThen [] .nil) (.ifThen [] exSeven) = .ok true ∧
    Expr.equals noSharing (.ifThen [] exSeven) (.ifThen [] .nil) = .ok false := by
  constructor <;> simp [Expr.equals, Expr.isNil, exSeven, EPair.equalsLoop]

/-- Window functions that differ in the bounds type (ROWS or RANGE) are equal. -/
theorem C18_negation_boundsType :
    let w : WinAttrs := ⟨3, 1, 1, none, none⟩
    Expr.equals noSharing (.window exVarFn w [] [] [])
      (.window exVarFn { w with boundsType := 2 } [] [] []) = .ok true := by
  simp [Expr.equals, exVarFn, Ty.equals, Expr.equalsLoop, ESort.equalsLoop, EArg.equalsLoop]

/-- A NaN literal is not equal to itself. -/
theorem C18_negation_nan :
    let e : Expr := .lit (.prim (.float32 0x7fc00000) (.prim .fp32 NullabilityRequired 0))
    Expr.equals noSharing e e = .ok false := by
  have h : nan32 0x7fc00000 = true := by decide
  simp [Expr.equals, Lit.equals, Ty.equals, PVal.goEq, h]

/-- A field reference without reference part is not equal to itself. -/
theorem C18_negation_noReference :
    let e : Expr := .fieldRef .rootReference .nil none
    Expr.equals noSharing e e = .ok false := by
  simp [Expr.equals, ERoot.equals, ERef.equals]

/-- Two different set comparisons without left side are equal. -/
theorem C18_negation_setComparison :
    Expr.equals noSharing (.setComparison 1 1 .nil (some ⟨1, []⟩))
      (.setComparison 2 3 .nil (some ⟨2, []⟩)) = .ok true := by
  simp [Expr.equals, Expr.isNil]

/-- A nested regular expression: a window function over a switch without default, with a sort
field, a partition by a nested field and a call. -/
example :
    let e : Expr := .window exVarFn ⟨3, 1, 1, some (.preceding 2), none⟩
      [.expr (.switch exSeven [.mk (.prim (.int32 7) (.prim .i32 NullabilityRequired 0)) exSeven] .nil),
       .enum "x", .type (.prim .i64 NullabilityNullable 0)]
      [.mk exSeven (.direction 2)]
      [.fieldRef .rootReference (.seg (.structField 1 (.listElement 0 .nil))) none,
       .scalar exVarFn [.expr exSeven]]
    e.Regular (fun _ => 1) := by
  simp [Expr.Regular, exVarFn, exSeven, Ty.PlanType, EArg.RegularList, EArg.Regular, Lit.Regular,
    PVal.Comparable, ECase.RegularList, ESort.RegularList, Expr.RegularList, ERoot.Regular,
    ERef.Regular, Seg.isNil, Seg.Regular, Expr.isNil]

/-- The type of a call differs: unequal. -/
example : Expr.equals noSharing (.scalar exVarFn [.type (.prim .i32 1 0)])
    (.scalar exVarFn [.type (.prim .i32 2 0)]) = .ok false := by
  simp [Expr.equals, exVarFn, Ty.equals, EArg.equalsLoop, EArg.equals, noSharing]

/-! ## C19 -/

/-- C19 for the type method: given a switch whose branches (and default) have the same type up to
nullability, its type is of that kind and is nullable exactly when there is no default, a branch
result is nullable, or the default is nullable. -/
theorem C19_switch_type (m els : Expr) (cases : List ECase) (k : Ty) (hne : cases ≠ [])
    (hb : ∀ c ∈ cases, ∃ u, c.result.getType = .ok u ∧ u.SameKind k)
    (he : els.isNil = true ∨ ∃ u, els.getType = .ok u ∧ u.SameKind k) :
    ∃ t, (Expr.switch m cases els).getType = .ok t ∧ t.SameKind k ∧
      (t.IsNullable ↔ els.isNil = true ∨
        (∃ c ∈ cases, ∃ u, c.result.getType = .ok u ∧ u.IsNullable) ∨
        (∃ u, els.getType = .ok u ∧ u.IsNullable)) := by
  obtain ⟨t, ht, hk, hi⟩ := branchType_spec k cases none (.inl hne) hb
  by_cases hn : els.isNil = true
  · refine ⟨t.withNullability NullabilityNullable, by simp [Expr.getType, ht, hn], ?_, ?_⟩
    · exact Eq.trans (withNullability_sameKind t _) hk
    · simp [hn, Ty.IsNullable, withNullability_nullability]
  · obtain ⟨u, hu, hku⟩ := he.resolve_left hn
    by_cases hnt : t.IsNullable
    · refine ⟨t, ?_, hk, ?_⟩
      · have hnt' : t.nullability = NullabilityNullable := hnt
        simp [Expr.getType, ht, hn, hnt']
      · simp only [hnt, true_iff]
        exact .inr (.inl (hi.1 hnt))
    · refine ⟨u, ?_, hku, ?_⟩
      · have hnt' : ¬ t.nullability = NullabilityNullable := hnt
        simp [Expr.getType, ht, hn, hnt', hu]
      · constructor
        · intro h; exact .inr (.inr ⟨u, hu, h⟩)
        · rintro (h | h | ⟨u', hu', h⟩)
          · exact absurd h hn
          · exact absurd (hi.2 h) hnt
          · rw [hu] at hu'; injection hu' with hu'; subst hu'; exact h

/-- The property in full, about what is given to `NewSwitch`. False: see `C19_negation`. -/
def C19_statement : Prop :=
  ∀ (m els e : Expr) (cases : List ECase),
    (∀ c ∈ cases, ∀ u, c.result.getType = .ok u → u.PlanType) →
    (∀ u, els.getType = .ok u → u.PlanType) →
    newSwitch m els cases = .ok e →
    ∃ t, e.getType = .ok t ∧
      (t.IsNullable ↔ els.isNil = true ∨
        (∃ c ∈ cases, ∃ u, c.result.getType = .ok u ∧ u.IsNullable) ∨
        (∃ u, els.getType = .ok u ∧ u.IsNullable)) ∧
      (∀ c ∈ cases, ∃ u, c.result.getType = .ok u ∧ t.SameKind u) ∧
      (∀ u, els.getType = .ok u → t.SameKind u)

/-- C19, missing: results of type interval_day. For a switch accepted by `NewSwitch`, with the
branches as they were given. -/
theorem C19_newSwitch_partial (m els e : Expr) (cases : List ECase)
    (hc : ∀ c ∈ cases, ∀ u, c.result.getType = .ok u → u.PlanType ∧ ¬ u.IsIntervalDay)
    (hel : ∀ u, els.getType = .ok u → u.PlanType ∧ ¬ u.IsIntervalDay)
    (h : newSwitch m els cases = .ok e) :
    ∃ t, e.getType = .ok t ∧
      (t.IsNullable ↔ els.isNil = true ∨
        (∃ c ∈ cases, ∃ u, c.result.getType = .ok u ∧ u.IsNullable) ∨
        (∃ u, els.getType = .ok u ∧ u.IsNullable)) ∧
      (∀ c ∈ cases, ∃ u, c.result.getType = .ok u ∧ t.SameKind u) ∧
      (∀ u, els.getType = .ok u → t.SameKind u) := by
  by_cases hm : m.isNil = true
  · simp [newSwitch, hm] at h
  cases hcs : cases with
  | nil =>
    subst hcs
    simp only [newSwitch, hm] at h
    obtain ⟨_, _, h⟩ := Res.bind_eq_ok.1 h
    cases h
  | cons c0 cs =>
    obtain ⟨l0, e0⟩ := c0
    rw [← hcs]
    rw [hcs] at h
    simp only [newSwitch, hm] at h
    obtain ⟨mt, _, h⟩ := Res.bind_eq_ok.1 h
    obtain ⟨out, hout, h⟩ := Res.bind_eq_ok.1 h
    obtain ⟨cases', hchk, h⟩ := Res.bind_eq_ok.1 h
    injection h with hfin
    rw [← hcs] at hchk
    have houts : ∃ b, out = some (Ty.withNullability b NullabilityUnspecified) ∧ b.PlanType ∧
        (els.isNil = true ∨ els.getType = .ok b) := by
      by_cases hn : els.isNil = true
      · simp only [hn, Bool.not_true, Bool.false_eq_true, if_false] at hout
        by_cases hn0 : e0.isNil = true
        · simp only [hn0, Bool.not_true, Bool.false_eq_true, if_false, Res.ok.injEq] at hout
          subst hout
          exfalso
          rw [hcs] at hchk
          cases l0 <;> simp [checkCases, hn0] at hchk
        · simp only [hn0] at hout
          obtain ⟨b, hb, h2⟩ := Res.bind_eq_ok.1 hout
          injection h2 with h2
          exact ⟨b, h2.symm, (hc (.mk l0 e0) (by simp [hcs]) b (by simpa [ECase.result] using hb)).1,
            .inl hn⟩
      · simp only [hn] at hout
        obtain ⟨b, hb, h2⟩ := Res.bind_eq_ok.1 hout
        injection h2 with h2
        exact ⟨b, h2.symm, (hel b hb).1, .inr hb⟩
    obtain ⟨b, rfl, hpb, hels⟩ := houts
    obtain ⟨i1, i2⟩ := checkCases_spec _ _ (planType_withNullability b _ hpb) cases cases' hchk
      (fun c hm' u hu => (hc c hm' u hu).2)
    have htouch : els.touch NullabilityUnspecified = els := by
      rcases hels with hn | hb
      · rw [expr_isNil_iff] at hn; subst hn; rfl
      · exact expr_touch_eq _ _ _ hb (hel b hb).2
    rw [htouch] at hfin
    clear hout
    have hk : ∀ c ∈ cases, ∃ u, c.result.getType = .ok u ∧ u.SameKind b := i2
    have hk' : ∀ c ∈ cases', ∃ u, c.result.getType = .ok u ∧ u.SameKind b := by
      intro c hmem
      have : c.result ∈ cases.map ECase.result := by
        rw [← i1]; exact List.mem_map_of_mem hmem
      obtain ⟨d, hd, hdr⟩ := List.mem_map.1 this
      rw [← hdr]
      exact hk d hd
    have hne : cases' ≠ [] := by
      rintro rfl
      rw [hcs] at i1
      simp at i1
    obtain ⟨t, ht, hts, hti⟩ := C19_switch_type (m.touch NullabilityUnspecified) els cases' b hne hk'
      (hels.imp_right (fun hb => ⟨b, hb, rfl⟩))
    subst hfin
    refine ⟨t, ht, ?_, ?_, ?_⟩
    · rw [hti, exists_result_congr i1 (fun e => ∃ u, e.getType = .ok u ∧ u.IsNullable)]
    · intro c hmem
      obtain ⟨u, hu, hs⟩ := hk c hmem
      exact ⟨u, hu, Eq.trans hts (Eq.symm hs)⟩
    · intro u hu
      rcases hels with hn | hb
      · rw [expr_isNil_iff] at hn; subst hn; simp [Expr.getType] at hu
      · rw [hb] at hu; injection hu with hu; subst hu; exact hts

/-- a dynamic parameter of type interval_day -/
def exDay (n : Nullability) : Expr := .dynParam (.prec .intervalDay n 0 6) 0

/-- A switch over a nullable interval_day result with a required default has an interval_day type
that is not nullable: building the switch erased the nullability of the results. -/
theorem C19_negation : ¬ C19_statement := by
  intro h
  obtain ⟨t, ht, hi, _⟩ := h exSeven (exDay NullabilityRequired)
    (.switch exSeven [.mk (.prim (.int32 7) (.prim .i32 NullabilityRequired 0))
      (exDay NullabilityUnspecified)] (exDay NullabilityUnspecified))
    [.mk (.prim (.int32 7) (.prim .i32 NullabilityRequired 0)) (exDay NullabilityNullable)]
    (by simp [ECase.result, exDay, Expr.getType, Ty.PlanType])
    (by simp [exDay, Expr.getType, Ty.PlanType])
    (by simp [newSwitch, checkCases, exSeven, exDay, Expr.isNil, Expr.getType, Lit.getType,
          Ty.withNullability, Ty.equals, Expr.touch, Lit.touch, Ty.touch])
  simp [Expr.getType, ECase.branchType, exDay, Ty.nullability, Expr.isNil,
    NullabilityNullable, NullabilityUnspecified, NullabilityRequired] at ht
  subst ht
  simp [Ty.IsNullable, Ty.nullability, ECase.result, exDay, Expr.getType, Expr.isNil,
    NullabilityNullable, NullabilityUnspecified, NullabilityRequired] at hi

/-- A switch of i64 results, the second nullable, with a required default, is accepted. -/
example :
    let big (n : Nullability) : Expr := .dynParam (.prim .i64 n 0) 0
    let lbl (i : Int32) : Lit := .prim (.int32 i) (.prim .i32 NullabilityRequired 0)
    let e : Expr := .switch exSeven [.mk (lbl 1) (big NullabilityRequired), .mk (lbl 2) (big NullabilityNullable)]
      (big NullabilityRequired)
    newSwitch exSeven (big NullabilityRequired)
      [.mk (lbl 1) (big NullabilityRequired), .mk (lbl 2) (big NullabilityNullable)] = .ok e ∧
    e.getType = .ok (.prim .i64 NullabilityNullable 0) := by
  constructor
  · simp [newSwitch, checkCases, exSeven, Expr.isNil, Expr.getType, Lit.getType,
      Ty.withNullability, Ty.equals, Expr.touch, Lit.touch, Ty.touch]
  · simp [Expr.getType, ECase.branchType, Ty.nullability, NullabilityNullable, NullabilityRequired,
      Expr.isNil]

/-! ## C54 -/

/-- C54. For clauses whose results have types: `NewIfThen` does not panic; it succeeds exactly when
the default, every condition and every result are present and each result has the default's type
(nullability included); the accepted expression has the clauses in order and the default, and its
type is the type of each result. -/
theorem C54_newIfThen (first : EPair) (els : Expr) (elsifs : List EPair)
    (hels : els.isNil = false → ∃ t, els.getType = .ok t ∧ t.PlanType)
    (hty : ∀ p ∈ first :: elsifs, p.result.isNil = false → ∃ t, p.result.getType = .ok t) :
    newIfThen first els elsifs ≠ .panic ∧
    ((∃ e, newIfThen first els elsifs = .ok e) ↔
      els.isNil = false ∧ ∀ p ∈ first :: elsifs, p.cond.isNil = false ∧ p.result.isNil = false ∧
        ∃ t t', p.result.getType = .ok t ∧ els.getType = .ok t' ∧ t.Same t') ∧
    (∀ e, newIfThen first els elsifs = .ok e →
      e = .ifThen (first :: elsifs) els ∧
      ∃ t, e.getType = .ok t ∧
        ∀ p ∈ first :: elsifs, ∃ u, p.result.getType = .ok u ∧ u.Same t) := by
  by_cases hn : els.isNil = true
  · simp [newIfThen, hn]
  have hn' : els.isNil = false := by simpa using hn
  obtain ⟨out, hout, hp⟩ := hels hn'
  obtain ⟨s1, s2⟩ := checkElsifs_spec out hp (first :: elsifs) hty
  have key : newIfThen first els elsifs =
      (checkElsifs out (first :: elsifs) >>= fun _ => .ok (.ifThen (first :: elsifs) els)) := by
    obtain ⟨a, b⟩ := first
    simp only [newIfThen, hn, hout, checkElsifs]
    by_cases ha : a.isNil = true
    · simp [ha]
    by_cases hb : b.isNil = true
    · simp [ha, hb]
    obtain ⟨t, ht⟩ := hty (.mk a b) (by simp) (by simpa [EPair.result] using hb)
    simp only [EPair.result] at ht
    obtain ⟨r, hr, _⟩ := equals_spec out t hp
    cases r <;> simp [ha, hb, ht, hr]
  rw [key]
  refine ⟨?_, ?_, ?_⟩
  · exact Res.bind_ne_panic s1 (by simp)
  · constructor
    · rintro ⟨e, he⟩
      obtain ⟨_, h1, _⟩ := Res.bind_eq_ok.1 he
      refine ⟨hn', fun p hp' => ?_⟩
      obtain ⟨h3, h4, t, h5, h6⟩ := s2.1 h1 p hp'
      exact ⟨h3, h4, t, out, h5, hout, h6⟩
    · rintro ⟨_, h⟩
      have : checkElsifs out (first :: elsifs) = .ok () := by
        rw [s2]
        intro p hp'
        obtain ⟨h3, h4, t, t', h5, h6, h7⟩ := h p hp'
        rw [hout] at h6
        injection h6 with h6
        subst h6
        exact ⟨h3, h4, t, h5, h7⟩
      exact ⟨_, by rw [this]; rfl⟩
  · intro e he
    obtain ⟨_, h1, h2⟩ := Res.bind_eq_ok.1 he
    injection h2 with h2
    subst h2
    refine ⟨rfl, out, by simpa [Expr.getType] using hout, fun p hp' => ?_⟩
    obtain ⟨_, _, t, h5, h6⟩ := s2.1 h1 p hp'
    exact ⟨t, h5, h6⟩

/-- Two clauses are accepted; a nullable result beside a required default is refused. -/
example :
    let cond : Expr := .dynParam (.prim .boolean NullabilityRequired 0) 0
    let big (n : Nullability) : Expr := .dynParam (.prim .i64 n 0) 1
    newIfThen (.mk cond (big NullabilityRequired)) (big NullabilityRequired)
      [.mk cond (big NullabilityRequired)] =
      .ok (.ifThen [.mk cond (big NullabilityRequired), .mk cond (big NullabilityRequired)]
        (big NullabilityRequired)) ∧
    newIfThen (.mk cond (big NullabilityNullable)) (big NullabilityRequired) [] = .err := by
  constructor <;>
  simp [newIfThen, checkElsifs, Expr.isNil, Expr.getType, Ty.equals, NullabilityNullable,
    NullabilityRequired]

end Verif

import Verif.Props.Expr
/-!
# Property C19, continued: which switches are accepted and what they contain
-/

namespace Verif

theorem not_nil_of_getType {e : Expr} {t : Ty} (h : e.getType = .ok t) : e.isNil = false := by
  cases e <;> first | rfl | (simp [Expr.getType] at h)

theorem not_nil_of_litType {l : Lit} {t : Ty} (h : l.getType = .ok t) : l ≠ .nil := by
  rintro rfl
  cases h

/-- the case passes the checks of the loop -/
def ECase.Passes (mt out : Ty) (c : ECase) : Prop :=
  (∃ lt, c.label.getType = .ok lt ∧ (lt.withNullability NullabilityUnspecified).Same mt) ∧
  ∃ t, c.result.getType = .ok t ∧ (t.withNullability NullabilityUnspecified).Same out

/-- the case after the calls of `WithNullability` -/
def ECase.touched (c : ECase) : ECase :=
  .mk (c.label.touch NullabilityUnspecified) (c.result.touch NullabilityUnspecified)

theorem checkCases_iff (mt out : Ty) (hm : mt.PlanType) (hp : out.PlanType) :
    ∀ (cases cases' : List ECase), checkCases mt (some out) cases = .ok cases' ↔
      (∀ c ∈ cases, c.Passes mt out) ∧ cases' = cases.map ECase.touched
  | [], cases' => by
    simp only [checkCases, Res.ok.injEq, List.not_mem_nil, false_implies, implies_true, true_and,
      List.map_nil]
    exact eq_comm
  | .mk l e :: cs, cases' => by
    have ih := checkCases_iff mt out hm hp cs
    have h2 : l ≠ .nil → checkCases mt (some out) (.mk l e :: cs) =
        (if e.isNil then (.err : Res (List ECase)) else
          l.getType >>= fun lt =>
          mt.equals (lt.withNullability NullabilityUnspecified) >>= fun b =>
          if b then
              e.getType >>= fun t =>
              out.equals (t.withNullability NullabilityUnspecified) >>= fun b =>
              if b then
                checkCases mt (some out) cs >>= fun cs =>
                .ok (.mk (l.touch NullabilityUnspecified) (e.touch NullabilityUnspecified) :: cs)
              else .err
          else .err) := by
      intro hl
      cases l <;> first | exact absurd rfl hl | rfl
    constructor
    · intro h
      have hl : l ≠ .nil := by rintro rfl; simp [checkCases] at h
      rw [h2 hl] at h
      by_cases hn : e.isNil = true
      · simp [hn] at h
      simp only [hn, if_false, Bool.false_eq_true] at h
      obtain ⟨lt, hlt, h3⟩ := Res.bind_eq_ok.1 h
      obtain ⟨b, hb', h4⟩ := Res.bind_eq_ok.1 h3
      cases b <;> simp only [if_true, Bool.false_eq_true, if_false, reduceCtorEq] at h4
      obtain ⟨t, ht, h5⟩ := Res.bind_eq_ok.1 h4
      obtain ⟨b, hb, h6⟩ := Res.bind_eq_ok.1 h5
      cases b <;> simp only [if_true, Bool.false_eq_true, if_false, reduceCtorEq] at h6
      obtain ⟨cs', hcs, h7⟩ := Res.bind_eq_ok.1 h6
      injection h7 with h7
      obtain ⟨i1, i2⟩ := (ih cs').1 hcs
      subst h7 i2
      refine ⟨?_, rfl⟩
      intro c hc
      rcases List.mem_cons.1 hc with rfl | hc
      · obtain ⟨r, hr, hi⟩ := equals_spec mt (lt.withNullability NullabilityUnspecified) hm
        rw [hb'] at hr
        injection hr with hr
        obtain ⟨r', hr', hi'⟩ := equals_spec out (t.withNullability NullabilityUnspecified) hp
        rw [hb] at hr'
        injection hr' with hr'
        exact ⟨⟨lt, hlt, (hi.1 hr.symm).symm⟩, t, ht, (hi'.1 hr'.symm).symm⟩
      · exact i1 c hc
    · rintro ⟨h, rfl⟩
      obtain ⟨⟨lt, hlt, h1⟩, t, ht, h2'⟩ := h _ (List.mem_cons_self ..)
      simp only [ECase.label, ECase.result] at hlt ht
      rw [h2 (not_nil_of_litType hlt)]
      obtain ⟨r, hr, hi⟩ := equals_spec mt (lt.withNullability NullabilityUnspecified) hm
      obtain ⟨r', hr', hi'⟩ := equals_spec out (t.withNullability NullabilityUnspecified) hp
      rw [hi.2 h1.symm] at hr
      rw [hi'.2 h2'.symm] at hr'
      rw [not_nil_of_getType ht, hlt, Res.ok_bind, hr, Res.ok_bind]
      simp only [Bool.false_eq_true, if_false, if_true, ht, Res.ok_bind, hr',
        (ih (cs.map ECase.touched)).2 ⟨fun c hc => h c (List.mem_cons_of_mem _ hc), rfl⟩]
      rfl

/-- The switch makes sense: what is compared has a type, there is a case, every label has the type of
what is compared and every result, the default included, has one type, nullability apart. -/
def SwitchFits (m els : Expr) (cases : List ECase) : Prop :=
  cases ≠ [] ∧
  (∃ mt, m.getType = .ok mt ∧ ∀ c ∈ cases, ∃ lt, c.label.getType = .ok lt ∧ lt.SameKind mt) ∧
  ∃ k : Ty, (∀ c ∈ cases, ∃ t, c.result.getType = .ok t ∧ t.SameKind k) ∧
    (els.isNil = true ∨ ∃ t, els.getType = .ok t ∧ t.SameKind k)

/-- all parts have types that can be in plans -/
structure SwitchTypes (m els : Expr) (cases : List ECase) : Prop where
  compared : ∀ u, m.getType = .ok u → u.PlanType
  results : ∀ c ∈ cases, ∀ u, c.result.getType = .ok u → u.PlanType
  default : ∀ u, els.getType = .ok u → u.PlanType

theorem sameKind_trans {a b c : Ty} (h : a.SameKind b) (h' : b.SameKind c) : a.SameKind c :=
  Eq.trans h h'

theorem newSwitch_iff (m els e : Expr) (cases : List ECase) (h : SwitchTypes m els cases) :
    newSwitch m els cases = .ok e ↔ SwitchFits m els cases ∧
      e = .switch (m.touch NullabilityUnspecified) (cases.map ECase.touched)
        (els.touch NullabilityUnspecified) := by
  constructor
  · intro he
    by_cases hm : m.isNil = true
    · simp [newSwitch, hm] at he
    simp only [newSwitch, hm, Bool.false_eq_true, if_false] at he
    obtain ⟨mt, hmt, he⟩ := Res.bind_eq_ok.1 he
    cases cases with
    | nil => cases he
    | cons c0 cs =>
      obtain ⟨l0, e0⟩ := c0
      obtain ⟨out, hout, he⟩ := Res.bind_eq_ok.1 he
      obtain ⟨cases', hchk, he⟩ := Res.bind_eq_ok.1 he
      injection he with he
      have houts : ∃ b, out = some (Ty.withNullability b NullabilityUnspecified) ∧ b.PlanType ∧
          (els.isNil = true ∨ els.getType = .ok b) := by
        by_cases hn : els.isNil = true
        · simp only [hn, Bool.not_true, Bool.false_eq_true, if_false] at hout
          by_cases hn0 : e0.isNil = true
          · simp only [hn0, Bool.not_true, Bool.false_eq_true, if_false, Res.ok.injEq] at hout
            subst hout
            exfalso
            cases l0 <;> simp [checkCases, hn0] at hchk
          · simp only [hn0] at hout
            obtain ⟨b, hb, h2⟩ := Res.bind_eq_ok.1 hout
            injection h2 with h2
            exact ⟨b, h2.symm, h.results (.mk l0 e0) (List.mem_cons_self ..) b hb, .inl hn⟩
        · simp only [hn] at hout
          obtain ⟨b, hb, h2⟩ := Res.bind_eq_ok.1 hout
          injection h2 with h2
          exact ⟨b, h2.symm, h.default b hb, .inr hb⟩
      obtain ⟨b, rfl, hpb, hels⟩ := houts
      obtain ⟨h1, h2⟩ := (checkCases_iff _ _ (planType_withNullability mt _ (h.compared mt hmt))
        (planType_withNullability b _ hpb) _ _).1 hchk
      subst h2
      exact ⟨⟨by simp, ⟨mt, hmt, fun c hc => (h1 c hc).1⟩, b, fun c hc => (h1 c hc).2,
        hels.imp_right fun hb => ⟨b, hb, rfl⟩⟩, he.symm⟩
  · rintro ⟨⟨hne, ⟨mt, hmt, hl⟩, k, hr, hels⟩, rfl⟩
    have hm := not_nil_of_getType hmt
    cases cases with
    | nil => exact absurd rfl hne
    | cons c0 cs =>
      obtain ⟨l0, e0⟩ := c0
      obtain ⟨t0, ht0, hk0⟩ := hr _ (List.mem_cons_self ..)
      simp only [ECase.result] at ht0
      have hpass : ∀ b : Ty, b.PlanType → b.SameKind k →
          checkCases (mt.withNullability NullabilityUnspecified)
            (some (b.withNullability NullabilityUnspecified)) (.mk l0 e0 :: cs) =
          .ok ((ECase.mk l0 e0 :: cs).map ECase.touched) := by
        intro b hb hbk
        refine (checkCases_iff _ _ (planType_withNullability mt _ (h.compared mt hmt))
          (planType_withNullability b _ hb) _ _).2 ⟨fun c hc => ⟨hl c hc, ?_⟩, rfl⟩
        obtain ⟨t, ht, hk⟩ := hr c hc
        exact ⟨t, ht, Eq.trans hk (Eq.symm hbk)⟩
      by_cases hn : els.isNil = true
      · simp only [newSwitch, hm, hmt, Res.ok_bind, hn, not_nil_of_getType ht0, Bool.not_true,
          Bool.not_false, Bool.false_eq_true, if_false, if_true, ht0,
          hpass t0 (h.results _ (List.mem_cons_self ..) t0 ht0) hk0]
      · obtain ⟨t, ht, hk⟩ := hels.resolve_left hn
        simp only [newSwitch, hm, hmt, Res.ok_bind, not_nil_of_getType ht,
          Bool.not_false, Bool.false_eq_true, if_false, if_true, ht, hpass t (h.default t ht) hk]

/-- **C19 (acceptance).** `NewSwitch` accepts exactly the switches that make sense. -/
theorem C19_accepts (m els : Expr) (cases : List ECase) (h : SwitchTypes m els cases) :
    (∃ e, newSwitch m els cases = .ok e) ↔ SwitchFits m els cases := by
  constructor
  · rintro ⟨e, he⟩
    exact ((newSwitch_iff m els e cases h).1 he).1
  · intro hf
    exact ⟨_, (newSwitch_iff m els _ cases h).2 ⟨hf, rfl⟩⟩

/-- **C19 (contents, partial).** The switch built is made of the very parts given, in order; missing:
parts of type interval_day, whose nullability is erased. -/
theorem C19_contents_partial (m els e : Expr) (cases : List ECase) (h : SwitchTypes m els cases)
    (hm : ∀ u, m.getType = .ok u → ¬ u.IsIntervalDay)
    (hl : ∀ c ∈ cases, ∀ u, c.label.getType = .ok u → ¬ u.IsIntervalDay)
    (hr : ∀ c ∈ cases, ∀ u, c.result.getType = .ok u → ¬ u.IsIntervalDay)
    (hd : ∀ u, els.getType = .ok u → ¬ u.IsIntervalDay)
    (he : newSwitch m els cases = .ok e) : e = .switch m cases els := by
  obtain ⟨⟨-, ⟨mt, hmt, hls⟩, k, hrs, hels⟩, rfl⟩ := (newSwitch_iff m els e cases h).1 he
  have e1 : m.touch NullabilityUnspecified = m := expr_touch_eq _ _ _ hmt (hm mt hmt)
  have e2 : els.touch NullabilityUnspecified = els := by
    rcases hels with hn | ⟨t, ht, -⟩
    · rw [expr_isNil_iff] at hn; subst hn; rfl
    · exact expr_touch_eq _ _ _ ht (hd t ht)
  have e3 : cases.map ECase.touched = cases := by
    conv => rhs; rw [← List.map_id cases]
    refine List.map_congr_left fun c hc => ?_
    obtain ⟨lt, hlt, -⟩ := hls c hc
    obtain ⟨t, ht, -⟩ := hrs c hc
    have hl' := hl c hc lt hlt
    have hr' := hr c hc t ht
    obtain ⟨l, x⟩ := c
    have e4 : l.touch NullabilityUnspecified = l := by
      simp only [ECase.label] at hlt
      cases l <;> simp [Lit.getType] at hlt <;> simp [Lit.touch] <;>
        (subst hlt; exact touch_of_not_intervalDay hl' _)
    have e5 : x.touch NullabilityUnspecified = x := expr_touch_eq _ _ _ ht hr'
    simp only [ECase.touched, ECase.label, ECase.result, e4, e5, id]
  rw [e1, e2, e3]

theorem touch_sameKind (t : Ty) (n : Nullability) : (t.touch n).SameKind t := by
  cases t <;> try rfl
  next k _ _ _ => cases k <;> rfl

theorem getType_touch (n : Nullability) : ∀ (e : Expr) (t : Ty), e.getType = .ok t →
    ∃ u, (e.touch n).getType = .ok u ∧ u.SameKind t
  | .nil, _, h => by cases h
  | .lit l, t, h => by
    simp only [Expr.getType] at h
    cases l <;> simp [Lit.getType] at h <;> subst h <;>
      first
      | exact ⟨_, rfl, touch_sameKind _ _⟩
      | exact ⟨_, rfl, rfl⟩
  | .fieldRef _ _ none, t, h => ⟨t, h, rfl⟩
  | .fieldRef _ _ (some _), t, h => by
    simp only [Expr.getType, Res.ok.injEq] at h
    subst h
    exact ⟨_, by simp only [Expr.touch, Expr.getType], touch_sameKind _ n⟩
  | .ifThen _ els, t, h => by
    simp only [Expr.getType] at h
    simp only [Expr.touch, Expr.getType]
    exact getType_touch n els t h
  | .cast _ _ _, t, h => by
    simp only [Expr.getType, Res.ok.injEq] at h
    subst h
    exact ⟨_, by simp only [Expr.touch, Expr.getType], touch_sameKind _ n⟩
  | .dynParam _ _, t, h => by
    simp only [Expr.getType, Res.ok.injEq] at h
    subst h
    exact ⟨_, by simp only [Expr.touch, Expr.getType], touch_sameKind _ n⟩
  | .switch _ _ _, t, h => ⟨t, h, rfl⟩
  | .singularOr _ _, t, h => ⟨t, h, rfl⟩
  | .multiOr _ _, t, h => ⟨t, h, rfl⟩
  | .mapE _ _ _, t, h => ⟨t, h, rfl⟩
  | .structE _ _ _, t, h => ⟨t, h, rfl⟩
  | .listE _ _ _, t, h => ⟨t, h, rfl⟩
  | .scalar _ _, t, h => by
    simp only [Expr.getType, Res.ok.injEq] at h
    subst h
    exact ⟨_, by simp only [Expr.touch, Expr.getType], touch_sameKind _ n⟩
  | .window _ _ _ _ _, t, h => by
    simp only [Expr.getType, Res.ok.injEq] at h
    subst h
    exact ⟨_, by simp only [Expr.touch, Expr.getType], touch_sameKind _ n⟩
  | .lambda _ _ _ _, t, h => ⟨t, h, rfl⟩
  | .scalarSubquery _, t, h => ⟨t, h, rfl⟩
  | .inPredicate _ _, t, h => ⟨t, h, rfl⟩
  | .setPredicate _ _, t, h => ⟨t, h, rfl⟩
  | .setComparison _ _ _ _, t, h => ⟨t, h, rfl⟩

/-- **C19 (kind).** For results of any type, interval_day included, the switch accepted has a type, and
it is the type of every result and of the default, nullability apart. -/
theorem C19_kind (m els e : Expr) (cases : List ECase) (h : SwitchTypes m els cases)
    (he : newSwitch m els cases = .ok e) :
    ∃ t, e.getType = .ok t ∧ (∀ c ∈ cases, ∃ u, c.result.getType = .ok u ∧ t.SameKind u) ∧
      (∀ u, els.getType = .ok u → t.SameKind u) := by
  obtain ⟨⟨hne, -, k, hrs, hels⟩, rfl⟩ := (newSwitch_iff m els e cases h).1 he
  obtain ⟨t, ht, hk, -⟩ := C19_switch_type (m.touch NullabilityUnspecified)
    (els.touch NullabilityUnspecified) (cases.map ECase.touched) k (by simpa using hne)
    (by
      intro c hc
      obtain ⟨d, hd, rfl⟩ := List.mem_map.1 hc
      obtain ⟨u, hu, hku⟩ := hrs d hd
      obtain ⟨v, hv, hvu⟩ := getType_touch NullabilityUnspecified _ _ hu
      exact ⟨v, hv, sameKind_trans hvu hku⟩)
    (by
      rcases hels with hn | ⟨u, hu, hku⟩
      · rw [expr_isNil_iff] at hn; subst hn; exact .inl rfl
      · obtain ⟨v, hv, hvu⟩ := getType_touch NullabilityUnspecified _ _ hu
        exact .inr ⟨v, hv, sameKind_trans hvu hku⟩)
  refine ⟨t, ht, fun c hc => ?_, fun u hu => ?_⟩
  · obtain ⟨u, hu, hku⟩ := hrs c hc
    exact ⟨u, hu, Eq.trans hk (Eq.symm hku)⟩
  · rcases hels with hn | ⟨v, hv, hkv⟩
    · rw [expr_isNil_iff] at hn; subst hn; cases hu
    · rw [hu] at hv
      cases hv
      exact Eq.trans hk (Eq.symm hkv)

/-- A switch with interval_day results meets the hypotheses and makes sense. -/
example :
    let cases : List ECase := [.mk (.prim (.int32 7) (.prim .i32 NullabilityRequired 0)) (exDay NullabilityNullable)]
    SwitchTypes exSeven (exDay NullabilityRequired) cases ∧
      SwitchFits exSeven (exDay NullabilityRequired) cases := by
  refine ⟨⟨?_, ?_, ?_⟩, by simp, ⟨.prim .i32 NullabilityRequired 0, by rfl, ?_⟩,
    .prec .intervalDay NullabilityRequired 0 6, ?_, .inr ⟨_, rfl, rfl⟩⟩
  · intro u hu; cases hu; trivial
  · intro c hc u hu
    cases List.mem_singleton.1 hc
    cases hu
    trivial
  · intro u hu; cases hu; trivial
  · intro c hc
    cases List.mem_singleton.1 hc
    exact ⟨_, rfl, rfl⟩
  · intro c hc
    cases List.mem_singleton.1 hc
    exact ⟨_, rfl, rfl⟩

/-- A label of another type is refused. -/
example : newSwitch exSeven .nil [.mk (.prim (.int64 7) (.prim .i64 NullabilityRequired 0))
    (exDay NullabilityNullable)] = .err := by
  simp [newSwitch, checkCases, exSeven, exDay, Expr.isNil, Expr.getType, Lit.getType,
    Ty.withNullability, Ty.equals]

end Verif

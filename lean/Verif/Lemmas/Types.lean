import Verif.Spec.Types
/-! # Helper lemmas about types -/

namespace Verif

theorem precisionOrPanic_valid {p : Int32} (h : ValidPrecision p) : precisionOrPanic p = .ok p := by
  obtain ⟨h1, h2⟩ := h
  have : ¬ (p < 0 ∨ p > 9) := by
    rw [GT.gt, Int32.lt_iff_toInt_lt, Int32.lt_iff_toInt_lt]
    simp; omega
  simp [precisionOrPanic, protoToTimePrecision, this]

theorem precisionOrPanic_eq_ok {p q : Int32} (h : precisionOrPanic p = .ok q) : q = p := by
  unfold precisionOrPanic protoToTimePrecision at h
  by_cases hp : p < 0 ∨ p > 9 <;> simp_all

theorem prim_from_to (k : Prim) : primFromProto (primToProto k) = k := by cases k <;> rfl
theorem prim_to_from (k : PPrim) : primToProto (primFromProto k) = k := by cases k <;> rfl

mutual
theorem type_from_to : ∀ (t : Ty) (m : PTy), t.PrecisionsOk → typeToProto t = .ok m →
    ∃ t', typeFromProto m = .ok t' ∧ t'.erase = t ∧ t.erase = t
  | .prim k n v, m, _, h => by
    simp [typeToProto] at h; subst h
    simp [typeFromProto, prim_from_to, Ty.erase]
  | .fixed k n v l, m, _, h => by
    cases k <;> (simp [typeToProto] at h; subst h; simp [typeFromProto, Ty.erase])
  | .decimal n v s p, m, _, h => by
    simp [typeToProto] at h; subst h
    simp [typeFromProto, Ty.erase]
  | .prec k n v p, m, hp, h => by
    simp only [Ty.PrecisionsOk] at hp
    cases k <;>
      (simp [typeToProto] at h; subst h
       simp [typeFromProto, precisionOrPanic_valid hp, Ty.erase])
  | .intervalCompound b n v p, m, hp, h => by
    simp only [Ty.PrecisionsOk] at hp
    cases b <;> simp [typeToProto] at h
    subst h
    simp [typeFromProto, precisionOrPanic_valid hp, Ty.erase]
  | .intervalYearToMonth n v, m, _, h => by simp [typeToProto] at h
  | .enum c n v nm os, m, _, h => by simp [typeToProto] at h
  | .struct n v ts, m, hp, h => by
    simp only [typeToProto, Res.bind_eq_ok, Ty.PrecisionsOk] at h hp
    obtain ⟨ms, h1, h2⟩ := h
    obtain ⟨ts', e1, e2, e3⟩ := types_from_to ts ms hp h1
    cases h2
    exact ⟨.struct n v ts', by simp [typeFromProto, e1], by simp [Ty.erase, e2],
      by simp [Ty.erase, e3]⟩
  | .func n ps r, m, hp, h => by
    simp only [typeToProto, Res.bind_eq_ok, Ty.PrecisionsOk] at h hp
    obtain ⟨ms, h1, mr, h2, h3⟩ := h
    obtain ⟨ts', e1, e2, e3⟩ := types_from_to ps ms hp.1 h1
    obtain ⟨r', f1, f2, f3⟩ := type_from_to r mr hp.2 h2
    cases h3
    exact ⟨.func n ts' r', by simp [typeFromProto, e1, f1], by simp [Ty.erase, e2, f2],
      by simp [Ty.erase, e3, f3]⟩
  | .list n v t, m, hp, h => by
    simp only [typeToProto, Res.bind_eq_ok, Ty.PrecisionsOk] at h hp
    obtain ⟨mr, h2, h3⟩ := h
    obtain ⟨r', f1, f2, f3⟩ := type_from_to t mr hp h2
    cases h3
    exact ⟨.list n v r', by simp [typeFromProto, f1], by simp [Ty.erase, f2],
      by simp [Ty.erase, f3]⟩
  | .map n v k e, m, hp, h => by
    simp only [typeToProto, Res.bind_eq_ok, Ty.PrecisionsOk] at h hp
    obtain ⟨mk, h1, mr, h2, h3⟩ := h
    obtain ⟨k', e1, e2, e3⟩ := type_from_to k mk hp.1 h1
    obtain ⟨r', f1, f2, f3⟩ := type_from_to e mr hp.2 h2
    cases h3
    exact ⟨.map n v k' r', by simp [typeFromProto, e1, f1], by simp [Ty.erase, e2, f2],
      by simp [Ty.erase, e3, f3]⟩
  | .udt n v r ps, m, hp, h => by
    simp only [typeToProto, Res.bind_eq_ok, Ty.PrecisionsOk] at h hp
    obtain ⟨ms, h1, h2⟩ := h
    obtain ⟨ts', e1, e2, e3⟩ := params_from_to ps ms hp h1
    cases h2
    exact ⟨.udt n v r ts', by simp [typeFromProto, e1], by simp [Ty.erase, e2],
      by simp [Ty.erase, e3]⟩
theorem types_from_to : ∀ (ts : List Ty) (ms : List PTy), Ty.PrecisionsOkList ts →
    typesToProto ts = .ok ms →
    ∃ ts', typesFromProto ms = .ok ts' ∧ Ty.eraseList ts' = ts ∧ Ty.eraseList ts = ts
  | [], ms, _, h => by
    simp [typesToProto] at h; subst h; simp [typesFromProto, Ty.eraseList]
  | t :: ts, ms, hp, h => by
    simp only [typesToProto, Res.bind_eq_ok, Ty.PrecisionsOkList] at h hp
    obtain ⟨mk, h1, mr, h2, h3⟩ := h
    obtain ⟨k', e1, e2, e3⟩ := type_from_to t mk hp.1 h1
    obtain ⟨r', f1, f2, f3⟩ := types_from_to ts mr hp.2 h2
    cases h3
    exact ⟨k' :: r', by simp [typesFromProto, e1, f1], by simp [Ty.eraseList, e2, f2],
      by simp [Ty.eraseList, e3, f3]⟩
theorem param_from_to : ∀ (p : TParam) (m : PParam), p.PrecisionsOk → paramToProto p = .ok m →
    ∃ p', paramFromProto m = .ok p' ∧ p'.erase = p ∧ p.erase = p
  | .nil, m, _, h => by simp [paramToProto] at h
  | .null, m, _, h => by
    simp [paramToProto] at h; subst h; simp [paramFromProto, TParam.erase]
  | .boolean b, m, _, h => by
    simp [paramToProto] at h; subst h; simp [paramFromProto, TParam.erase]
  | .integer b, m, _, h => by
    simp [paramToProto] at h; subst h; simp [paramFromProto, TParam.erase]
  | .enum b, m, _, h => by
    simp [paramToProto] at h; subst h; simp [paramFromProto, TParam.erase]
  | .string b, m, _, h => by
    simp [paramToProto] at h; subst h; simp [paramFromProto, TParam.erase]
  | .dataType t, m, hp, h => by
    simp only [paramToProto, Res.bind_eq_ok, TParam.PrecisionsOk] at h hp
    obtain ⟨mr, h2, h3⟩ := h
    obtain ⟨r', f1, f2, f3⟩ := type_from_to t mr hp h2
    cases h3
    exact ⟨.dataType r', by simp [paramFromProto, f1], by simp [TParam.erase, f2],
      by simp [TParam.erase, f3]⟩
theorem params_from_to : ∀ (ps : List TParam) (ms : List PParam), TParam.PrecisionsOkList ps →
    paramsToProto ps = .ok ms →
    ∃ ps', paramsFromProto ms = .ok ps' ∧ TParam.eraseList ps' = ps ∧ TParam.eraseList ps = ps
  | [], ms, _, h => by
    simp [paramsToProto] at h; subst h; simp [paramsFromProto, TParam.eraseList]
  | t :: ts, ms, hp, h => by
    simp only [paramsToProto, Res.bind_eq_ok, TParam.PrecisionsOkList] at h hp
    obtain ⟨mk, h1, mr, h2, h3⟩ := h
    obtain ⟨k', e1, e2, e3⟩ := param_from_to t mk hp.1 h1
    obtain ⟨r', f1, f2, f3⟩ := params_from_to ts mr hp.2 h2
    cases h3
    exact ⟨k' :: r', by simp [paramsFromProto, e1, f1], by simp [TParam.eraseList, e2, f2],
      by simp [TParam.eraseList, e3, f3]⟩
end

mutual
theorem type_to_from : ∀ (m : PTy) (t : Ty), m.NoCompound → typeFromProto m = .ok t →
    typeToProto t = .ok m.normalise
  | .unset, t, _, h => by simp [typeFromProto] at h
  | .prim k n v, t, _, h => by
    simp [typeFromProto] at h; subst h; simp [typeToProto, prim_to_from, PTy.normalise]
  | .intervalDay n v none, t, _, h => by
    simp [typeFromProto] at h; subst h; simp [typeToProto, PTy.normalise]
  | .intervalDay n v (some p), t, _, h => by
    simp only [typeFromProto, Res.bind_eq_ok] at h
    obtain ⟨q, h1, h2⟩ := h
    cases precisionOrPanic_eq_ok h1; cases h2; simp [typeToProto, PTy.normalise]
  | .intervalCompound n v p, t, hn, h => by simp [PTy.NoCompound] at hn
  | .fixedBinary n v l, t, _, h => by
    simp [typeFromProto] at h; subst h; simp [typeToProto, PTy.normalise]
  | .fixedChar n v l, t, _, h => by
    simp [typeFromProto] at h; subst h; simp [typeToProto, PTy.normalise]
  | .varchar n v l, t, _, h => by
    simp [typeFromProto] at h; subst h; simp [typeToProto, PTy.normalise]
  | .decimal n v s p, t, _, h => by
    simp [typeFromProto] at h; subst h; simp [typeToProto, PTy.normalise]
  | .precisionTime n v p, t, _, h => by
    simp only [typeFromProto, Res.bind_eq_ok] at h
    obtain ⟨q, h1, h2⟩ := h
    cases precisionOrPanic_eq_ok h1; cases h2; simp [typeToProto, PTy.normalise]
  | .precisionTimestamp n v p, t, _, h => by
    simp only [typeFromProto, Res.bind_eq_ok] at h
    obtain ⟨q, h1, h2⟩ := h
    cases precisionOrPanic_eq_ok h1; cases h2; simp [typeToProto, PTy.normalise]
  | .precisionTimestampTz n v p, t, _, h => by
    simp only [typeFromProto, Res.bind_eq_ok] at h
    obtain ⟨q, h1, h2⟩ := h
    cases precisionOrPanic_eq_ok h1; cases h2; simp [typeToProto, PTy.normalise]
  | .struct n v ts, t, hn, h => by
    simp only [typeFromProto, Res.bind_eq_ok, PTy.NoCompound] at h hn
    obtain ⟨ts', h1, h2⟩ := h
    cases h2; simp [typeToProto, types_to_from ts ts' hn h1, PTy.normalise]
  | .func n ps r, t, hn, h => by
    simp only [typeFromProto, Res.bind_eq_ok, PTy.NoCompound] at h hn
    obtain ⟨ts', h1, r', h2, h3⟩ := h
    cases h3
    simp [typeToProto, types_to_from ps ts' hn.1 h1, type_to_from r r' hn.2 h2, PTy.normalise]
  | .list n v e, t, hn, h => by
    simp only [typeFromProto, Res.bind_eq_ok, PTy.NoCompound] at h hn
    obtain ⟨r', h2, h3⟩ := h
    cases h3
    simp [typeToProto, type_to_from e r' hn h2, PTy.normalise]
  | .map n v k e, t, hn, h => by
    simp only [typeFromProto, Res.bind_eq_ok, PTy.NoCompound] at h hn
    obtain ⟨ts', h1, r', h2, h3⟩ := h
    cases h3
    simp [typeToProto, type_to_from k ts' hn.1 h1, type_to_from e r' hn.2 h2, PTy.normalise]
  | .udt n v r ps, t, hn, h => by
    simp only [typeFromProto, Res.bind_eq_ok, PTy.NoCompound] at h hn
    obtain ⟨ts', h1, h2⟩ := h
    cases h2; simp [typeToProto, params_to_from ps ts' hn h1, PTy.normalise]
theorem types_to_from : ∀ (ms : List PTy) (ts : List Ty), PTy.NoCompoundList ms →
    typesFromProto ms = .ok ts → typesToProto ts = .ok (PTy.normaliseList ms)
  | [], ts, _, h => by
    simp [typesFromProto] at h; subst h; simp [typesToProto, PTy.normaliseList]
  | m :: ms, ts, hn, h => by
    simp only [typesFromProto, Res.bind_eq_ok, PTy.NoCompoundList] at h hn
    obtain ⟨ts', h1, r', h2, h3⟩ := h
    cases h3
    simp [typesToProto, type_to_from m ts' hn.1 h1, types_to_from ms r' hn.2 h2,
      PTy.normaliseList]
theorem param_to_from : ∀ (m : PParam) (p : TParam), m.NoCompound →
    paramFromProto m = .ok p → paramToProto p = .ok m.normalise
  | .unset, p, hn, _ => by simp [PParam.NoCompound] at hn
  | .null, p, _, h => by
    simp [paramFromProto] at h; subst h; simp [paramToProto, PParam.normalise]
  | .boolean b, p, _, h => by
    simp [paramFromProto] at h; subst h; simp [paramToProto, PParam.normalise]
  | .integer b, p, _, h => by
    simp [paramFromProto] at h; subst h; simp [paramToProto, PParam.normalise]
  | .enum b, p, _, h => by
    simp [paramFromProto] at h; subst h; simp [paramToProto, PParam.normalise]
  | .string b, p, _, h => by
    simp [paramFromProto] at h; subst h; simp [paramToProto, PParam.normalise]
  | .dataType t, p, hn, h => by
    simp only [paramFromProto, Res.bind_eq_ok, PParam.NoCompound] at h hn
    obtain ⟨r', h2, h3⟩ := h
    cases h3
    simp [paramToProto, type_to_from t r' hn h2, PParam.normalise]
theorem params_to_from : ∀ (ms : List PParam) (ps : List TParam), PParam.NoCompoundList ms →
    paramsFromProto ms = .ok ps → paramsToProto ps = .ok (PParam.normaliseList ms)
  | [], ps, _, h => by
    simp [paramsFromProto] at h; subst h; simp [paramsToProto, PParam.normaliseList]
  | m :: ms, ps, hn, h => by
    simp only [paramsFromProto, Res.bind_eq_ok, PParam.NoCompoundList] at h hn
    obtain ⟨ts', h1, r', h2, h3⟩ := h
    cases h3
    simp [paramsToProto, param_to_from m ts' hn.1 h1, params_to_from ms r' hn.2 h2,
      PParam.normaliseList]
end

theorem eraseList_length : ∀ ts : List Ty, (Ty.eraseList ts).length = ts.length
  | [] => rfl
  | _ :: ts => by simp [Ty.eraseList, eraseList_length ts]

theorem peraseList_length : ∀ ts : List TParam, (TParam.eraseList ts).length = ts.length
  | [] => rfl
  | _ :: ts => by simp [TParam.eraseList, peraseList_length ts]

/-- the call returns, and answers whether `P` holds -/
def Decides (x : Res Bool) (P : Prop) : Prop := ∃ r, x = .ok r ∧ (r = true ↔ P)

theorem Decides.of_false {x : Res Bool} {P : Prop} (hx : x = .ok false) (h : ¬ P) : Decides x P :=
  ⟨false, hx, by simp [h]⟩

theorem Decides.and {x y : Res Bool} {P Q : Prop} (hx : Decides x P) (hy : Decides y Q) :
    Decides (x >>= fun b => if b then y else .ok false) (P ∧ Q) := by
  obtain ⟨b1, rfl, e⟩ := hx
  obtain ⟨b2, rfl, f⟩ := hy
  cases b1
  · exact ⟨false, by simp, by simp at e; simp [e]⟩
  · exact ⟨b2, by simp, by simp at e; simp [e, f]⟩

theorem Decides.and' {x y : Res Bool} {P Q : Prop} (hx : Decides x P) (hy : Decides y Q) :
    Decides (x >>= fun b => if b = false then .ok false else y) (Q ∧ P) := by
  obtain ⟨b1, rfl, e⟩ := hx
  obtain ⟨b2, rfl, f⟩ := hy
  cases b1
  · exact ⟨false, by simp, by simp at e; simp [e]⟩
  · exact ⟨b2, by simp, by simp at e; simp [e, f]⟩

theorem Decides.congr {x : Res Bool} {P Q : Prop} (hx : Decides x P) (h : P ↔ Q) : Decides x Q := by
  obtain ⟨b, e, f⟩ := hx
  exact ⟨b, e, f.trans h⟩

mutual
theorem equals_spec : ∀ (a b : Ty), a.PlanType → Decides (Ty.equals a b) (a.erase = b.erase)
  | .prim k n v, b, _ => by
    cases b <;> simp [Decides, Ty.equals, Ty.erase, and_assoc]
  | .fixed k n v l, b, _ => by
    cases b <;> simp [Decides, Ty.equals, Ty.erase, and_assoc]
  | .decimal n v s p, b, _ => by
    cases b <;> simp [Decides, Ty.equals, Ty.erase, and_assoc]
  | .prec k n v p, b, _ => by
    cases b <;> simp [Decides, Ty.equals, Ty.erase, and_assoc]
  | .intervalCompound c n v p, b, _ => by
    cases b <;> simp [Decides, Ty.equals, Ty.erase, and_assoc]
  | .intervalYearToMonth n v, b, _ => by
    cases b <;> simp [Decides, Ty.equals, Ty.erase]
  | .enum c n v nm os, b, h => by simp [Ty.PlanType] at h
  | .struct n v ts, b, h => by
    simp only [Ty.PlanType] at h
    cases b <;> try (simp [Decides, Ty.equals, Ty.erase]; done)
    next n' v' ts' =>
      by_cases hn : n = n' <;> by_cases hv : v = v' <;> by_cases hl : ts.length = ts'.length
        <;> simp [Ty.equals, Ty.erase, hn, hv, hl]
      all_goals first
        | exact equalsList_spec ts ts' h hl
        | (refine .of_false rfl ?_; first | exact id | skip)
      intro e; apply hl
      simpa [eraseList_length] using congrArg List.length e
  | .func n ps r, b, h => by
    simp only [Ty.PlanType] at h
    cases b <;> try (simp [Decides, Ty.equals, Ty.erase]; done)
    next n' ps' r' =>
      by_cases hn : n = n' <;> by_cases hl : ps.length = ps'.length
        <;> simp [Ty.equals, Ty.erase, hn, hl]
      all_goals first
        | exact (equals_spec r r' h.2).and' (equalsList_spec ps ps' h.1 hl)
        | (refine .of_false rfl ?_; first | exact id | skip)
      intro e; apply hl
      simpa [eraseList_length] using congrArg List.length e.1
  | .list n v t, b, h => by
    simp only [Ty.PlanType] at h
    cases b <;> try (simp [Decides, Ty.equals, Ty.erase]; done)
    next n' v' t' =>
      by_cases hn : n = n' <;> by_cases hv : v = v' <;> simp [Ty.equals, Ty.erase, hn, hv]
      all_goals first
        | exact equals_spec t t' h
        | exact .of_false rfl id
  | .map n v k e, b, h => by
    simp only [Ty.PlanType] at h
    cases b <;> try (simp [Decides, Ty.equals, Ty.erase]; done)
    next n' v' k' e' =>
      by_cases hn : n = n' <;> by_cases hv : v = v' <;> simp [Ty.equals, Ty.erase, hn, hv]
      all_goals first
        | exact (equals_spec k k' h.1).and (equals_spec e e' h.2)
        | exact .of_false rfl id
  | .udt n v r ps, b, h => by
    simp only [Ty.PlanType] at h
    cases b <;> try (simp [Decides, Ty.equals, Ty.erase]; done)
    next n' v' r' ps' =>
      by_cases hn : n = n' <;> by_cases hv : v = v' <;> by_cases hr : r = r'
        <;> by_cases hl : ps.length = ps'.length
        <;> simp [Ty.equals, Ty.erase, hn, hv, hl, hr]
      all_goals first
        | exact pequalsList_spec ps ps' h hl
        | (refine .of_false rfl ?_; first | exact id | skip)
      intro e; apply hl
      simpa [peraseList_length] using congrArg List.length e
theorem equalsList_spec : ∀ (a b : List Ty), Ty.PlanTypeList a → a.length = b.length →
    Decides (Ty.equalsList a b) (Ty.eraseList a = Ty.eraseList b)
  | [], [], _, _ => by simp [Decides, Ty.equalsList, Ty.eraseList]
  | [], _ :: _, _, hl => by simp at hl
  | _ :: _, [], _, hl => by simp at hl
  | t :: ts, t' :: ts', h, hl => by
    simp only [Ty.PlanTypeList] at h
    simp only [Ty.equalsList, Ty.eraseList, List.cons.injEq]
    exact (equals_spec t t' h.1).and (equalsList_spec ts ts' h.2 (by simpa using hl))
theorem pequals_spec : ∀ (a b : TParam), a.PlanType →
    Decides (TParam.equals a b) (a.erase = b.erase)
  | .nil, b, h => by simp [TParam.PlanType] at h
  | .null, b, _ => by cases b <;> simp [Decides, TParam.equals, TParam.erase]
  | .boolean _, b, _ => by cases b <;> simp [Decides, TParam.equals, TParam.erase]
  | .integer _, b, _ => by cases b <;> simp [Decides, TParam.equals, TParam.erase]
  | .enum _, b, _ => by cases b <;> simp [Decides, TParam.equals, TParam.erase]
  | .string _, b, _ => by cases b <;> simp [Decides, TParam.equals, TParam.erase]
  | .dataType t, b, h => by
    simp only [TParam.PlanType] at h
    cases b <;> simp only [TParam.equals, TParam.erase, TParam.dataType.injEq]
    case dataType t' => exact equals_spec t t' h
    all_goals exact .of_false rfl (by simp)
theorem pequalsList_spec : ∀ (a b : List TParam), TParam.PlanTypeList a → a.length = b.length →
    Decides (TParam.equalsList a b) (TParam.eraseList a = TParam.eraseList b)
  | [], [], _, _ => by simp [Decides, TParam.equalsList, TParam.eraseList]
  | [], _ :: _, _, hl => by simp at hl
  | _ :: _, [], _, hl => by simp at hl
  | t :: ts, t' :: ts', h, hl => by
    simp only [TParam.PlanTypeList] at h
    simp only [TParam.equalsList, TParam.eraseList, List.cons.injEq]
    exact (pequals_spec t t' h.1).and (pequalsList_spec ts ts' h.2 (by simpa using hl))
end

mutual
theorem toProto_planType : ∀ (t : Ty) (m : PTy), typeToProto t = .ok m → t.PlanType
  | .prim .., _, _ => by simp [Ty.PlanType]
  | .fixed .., _, _ => by simp [Ty.PlanType]
  | .decimal .., _, _ => by simp [Ty.PlanType]
  | .prec .., _, _ => by simp [Ty.PlanType]
  | .intervalCompound .., _, _ => by simp [Ty.PlanType]
  | .intervalYearToMonth .., _, _ => by simp [Ty.PlanType]
  | .enum .., _, h => by simp [typeToProto] at h
  | .struct n v ts, m, h => by
    simp only [typeToProto, Res.bind_eq_ok] at h
    obtain ⟨ms, h1, _⟩ := h
    simpa [Ty.PlanType] using toProto_planTypes ts ms h1
  | .func n ps r, m, h => by
    simp only [typeToProto, Res.bind_eq_ok] at h
    obtain ⟨ms, h1, mr, h2, _⟩ := h
    exact ⟨toProto_planTypes ps ms h1, toProto_planType r mr h2⟩
  | .list n v t, m, h => by
    simp only [typeToProto, Res.bind_eq_ok] at h
    obtain ⟨mr, h2, _⟩ := h
    simpa [Ty.PlanType] using toProto_planType t mr h2
  | .map n v k e, m, h => by
    simp only [typeToProto, Res.bind_eq_ok] at h
    obtain ⟨ms, h1, mr, h2, _⟩ := h
    exact ⟨toProto_planType k ms h1, toProto_planType e mr h2⟩
  | .udt n v r ps, m, h => by
    simp only [typeToProto, Res.bind_eq_ok] at h
    obtain ⟨ms, h1, _⟩ := h
    simpa [Ty.PlanType] using toProto_planParams ps ms h1
theorem toProto_planTypes : ∀ (ts : List Ty) (ms : List PTy), typesToProto ts = .ok ms →
    Ty.PlanTypeList ts
  | [], _, _ => by simp [Ty.PlanTypeList]
  | t :: ts, ms, h => by
    simp only [typesToProto, Res.bind_eq_ok] at h
    obtain ⟨m, h1, ms', h2, _⟩ := h
    exact ⟨toProto_planType t m h1, toProto_planTypes ts ms' h2⟩
theorem toProto_planParam : ∀ (p : TParam) (m : PParam), paramToProto p = .ok m → p.PlanType
  | .nil, _, h => by simp [paramToProto] at h
  | .null, _, _ => by simp [TParam.PlanType]
  | .boolean _, _, _ => by simp [TParam.PlanType]
  | .integer _, _, _ => by simp [TParam.PlanType]
  | .enum _, _, _ => by simp [TParam.PlanType]
  | .string _, _, _ => by simp [TParam.PlanType]
  | .dataType t, m, h => by
    simp only [paramToProto, Res.bind_eq_ok] at h
    obtain ⟨mr, h2, _⟩ := h
    simpa [TParam.PlanType] using toProto_planType t mr h2
theorem toProto_planParams : ∀ (ts : List TParam) (ms : List PParam), paramsToProto ts = .ok ms →
    TParam.PlanTypeList ts
  | [], _, _ => by simp [TParam.PlanTypeList]
  | t :: ts, ms, h => by
    simp only [paramsToProto, Res.bind_eq_ok] at h
    obtain ⟨m, h1, ms', h2, _⟩ := h
    exact ⟨toProto_planParam t m h1, toProto_planParams ts ms' h2⟩
end

/-- equality on a left argument that is a plan type -/
theorem equals_true_iff {a b : Ty} (ha : a.PlanType) :
    Ty.equals a b = .ok true ↔ a.erase = b.erase := by
  obtain ⟨r, h1, h2⟩ := equals_spec a b ha
  rw [h1, ← h2]; simp

mutual
theorem erase_planType : ∀ (a b : Ty), a.erase = b.erase → a.PlanType → b.PlanType
  | a, .prim .., h, ha => by simp [Ty.PlanType]
  | a, .fixed .., h, ha => by simp [Ty.PlanType]
  | a, .decimal .., h, ha => by simp [Ty.PlanType]
  | a, .prec .., h, ha => by simp [Ty.PlanType]
  | a, .intervalCompound .., h, ha => by simp [Ty.PlanType]
  | a, .intervalYearToMonth .., h, ha => by simp [Ty.PlanType]
  | a, .enum .., h, ha => by
    cases a <;> simp [Ty.erase, Ty.PlanType] at h ha
  | a, .struct n v ts, h, ha => by
    cases a <;> simp [Ty.erase, Ty.PlanType] at h ha ⊢
    next n' v' ts' => exact erase_planTypes ts' ts h.2.2 ha
  | a, .func n ps r, h, ha => by
    cases a <;> simp [Ty.erase, Ty.PlanType] at h ha ⊢
    next n' ps' r' => exact ⟨erase_planTypes ps' ps h.2.1 ha.1, erase_planType r' r h.2.2 ha.2⟩
  | a, .list n v t, h, ha => by
    cases a <;> simp [Ty.erase, Ty.PlanType] at h ha ⊢
    next n' v' t' => exact erase_planType t' t h.2.2 ha
  | a, .map n v k e, h, ha => by
    cases a <;> simp [Ty.erase, Ty.PlanType] at h ha ⊢
    next n' v' k' e' => exact ⟨erase_planType k' k h.2.2.1 ha.1, erase_planType e' e h.2.2.2 ha.2⟩
  | a, .udt n v r ps, h, ha => by
    cases a <;> simp [Ty.erase, Ty.PlanType] at h ha ⊢
    next n' v' r' ps' => exact erase_planParams ps' ps h.2.2.2 ha
theorem erase_planTypes : ∀ (a b : List Ty), Ty.eraseList a = Ty.eraseList b →
    Ty.PlanTypeList a → Ty.PlanTypeList b
  | a, [], _, _ => by simp [Ty.PlanTypeList]
  | a, b :: bs, h, ha => by
    cases a <;> simp [Ty.eraseList, Ty.PlanTypeList] at h ha ⊢
    next a as => exact ⟨erase_planType a b h.1 ha.1, erase_planTypes as bs h.2 ha.2⟩
theorem erase_planParam : ∀ (a b : TParam), a.erase = b.erase → a.PlanType → b.PlanType
  | a, .nil, h, ha => by cases a <;> simp [TParam.erase, TParam.PlanType] at h ha
  | a, .null, _, _ => by simp [TParam.PlanType]
  | a, .boolean _, _, _ => by simp [TParam.PlanType]
  | a, .integer _, _, _ => by simp [TParam.PlanType]
  | a, .enum _, _, _ => by simp [TParam.PlanType]
  | a, .string _, _, _ => by simp [TParam.PlanType]
  | a, .dataType t, h, ha => by
    cases a <;> simp [TParam.erase, TParam.PlanType] at h ha ⊢
    next t' => exact erase_planType t' t h ha
theorem erase_planParams : ∀ (a b : List TParam), TParam.eraseList a = TParam.eraseList b →
    TParam.PlanTypeList a → TParam.PlanTypeList b
  | a, [], _, _ => by simp [TParam.PlanTypeList]
  | a, b :: bs, h, ha => by
    cases a <;> simp [TParam.eraseList, TParam.PlanTypeList] at h ha ⊢
    next a as => exact ⟨erase_planParam a b h.1 ha.1, erase_planParams as bs h.2 ha.2⟩
end

end Verif

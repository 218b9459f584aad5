import Verif.Props.MatchAt
import Verif.Props.Derivation
/-!
# The result of a call: C129
-/

namespace Verif

/-- The nullability of all arguments for declared types is known: nullable or required. -/
def Settled (params : List FuncParam) (args : List Ty) : Prop :=
  ∀ (i : Nat) (t : Ty) (p : FuncParam), args[i]? = some t → paramFor params i = some p → p.declared.isSome →
    t.nullability = NullabilityNullable ∨ t.nullability = NullabilityRequired

/-- The type a call has if `out` is what the declared return type `ret` stands for: a user-defined type
refers to the declaration of that name in the extension of the function. -/
def Refers (anchor : String → UInt32) (ret : FTy) (out out' : Ty) : Prop :=
  match ret with
  | .udt _ _ name _ => ∃ n v r ps, out = .udt n v r ps ∧ out' = .udt n v (anchor name) ps
  | _ => out' = out

/-- an argument for an enum parameter is an enum argument -/
theorem accepts_enum {nh : NullHandling} (hnh : nh = .mirror ∨ nh = .declaredOutput ∨ nh = .discrete)
    {t : Ty} (h : accepts nh commonEnum t = true) (ht : t.Argument) : t = .enum true 0 0 "" [] := by
  have h : FTy.matchLoose commonEnum t = true := by
    rcases hnh with rfl | rfl | rfl
    · exact h
    · exact h
    · exact strict_loose _ _ h
  obtain ⟨c, n, v, x, os, rfl, _⟩ := enum_fits (N := fun _ _ => True) (S := False) (x := "") (os := []) h
  rcases ht with ht | ht
  · simp [Ty.PlanType] at ht
  · exact ht

/-- what is accepted passes the second look -/
theorem validateType_ok {nh : NullHandling} (hnh : nh = .mirror ∨ nh = .declaredOutput ∨ nh = .discrete)
    {p : FuncParam} {d : FTy} {t : Ty} (hd : p.def? = some d) (h : accepts nh d t = true) (ht : t.Argument)
    (hs : p.declared.isSome → t.nullability = NullabilityNullable ∨ t.nullability = NullabilityRequired) :
    ∃ b, validateType p t nh = .ok b := by
  cases p with
  | value d' =>
    simp [FuncParam.def?] at hd; subst hd
    by_cases hdis : nh = .discrete
    · subst hdis
      have hn : d'.nullability = t.nullability := by
        cases d' <;> simp_all [accepts, FTy.matchStrict, FTy.nullability]
      rcases hs rfl with hs | hs <;> simp [validateType, hn, hs, NullabilityNullable, NullabilityRequired]
    · simp [validateType, hdis]
  | enum x os =>
    simp [FuncParam.def?] at hd; subst hd
    rw [accepts_enum hnh h ht]
    exact ⟨true, rfl⟩
  | type => simp [FuncParam.def?] at hd
  | missing => simp [FuncParam.def?] at hd

/-- ... for the declared parameters -/
theorem validateTypes_ok {nh : NullHandling} : ∀ (params : List FuncParam) (args : List Ty),
    (∀ (i : Nat) (p : FuncParam) (t : Ty), params[i]? = some p → args[i]? = some t →
      ∃ b, validateType p t nh = .ok b) → ∃ b, validateTypes nh params args = .ok b
  | [], args, _ => ⟨true, by simp [validateTypes]⟩
  | p :: ps, [], _ => ⟨true, by simp [validateTypes]⟩
  | p :: ps, t :: ts, h => by
    obtain ⟨b, hb⟩ := h 0 p t rfl rfl
    obtain ⟨c, hc⟩ := validateTypes_ok (nh := nh) ps ts fun i p t hp ht => h (i + 1) p t (by simpa) (by simpa)
    exact ⟨b && c, by simp [validateTypes, hb, hc]⟩

/-- ... for further arguments -/
theorem validateRest_ok {nh : NullHandling} {last : FuncParam} : ∀ (args : List Ty),
    (∀ t ∈ args, ∃ b, validateType last t nh = .ok b) → ∃ b, validateRest nh last args = .ok b
  | [], _ => ⟨true, by simp [validateRest]⟩
  | t :: ts, h => by
    obtain ⟨b, hb⟩ := h t (by simp)
    obtain ⟨c, hc⟩ := validateRest_ok (nh := nh) (last := last) ts fun t ht => h t (by simp [ht])
    exact ⟨b && c, by simp [validateRest, hb, hc]⟩

/-- the declared return type of a user-defined type stands for a user-defined type -/
theorem returnType_udt {params : List FTy} {args : List Ty} {n : Nullability} {v : UInt32} {name : String}
    {ps : List FParam} {out : Ty} (h : FTy.returnType params args (.udt n v name ps) = .ok out) :
    ∃ n v r ts, out = .udt n v r ts := by
  simp only [FTy.returnType] at h
  obtain ⟨ts, _, h⟩ := Res.bind_eq_ok.1 h
  simp at h
  exact ⟨_, _, _, _, h.symm⟩

/-- C129, the step from `Match` to `ResolveType`: for an accepted call `ResolveType` gives what the
declared return type gives for the arguments. -/
theorem C129_resolved {anchor : String → UInt32} {nh : NullHandling} {ret : FTy} {params : List FuncParam}
    {variadic : Option Variadic} {args args' : List Ty}
    (hnh : nh = .mirror ∨ nh = .declaredOutput ∨ nh = .discrete)
    (hm : matchArguments nh params variadic args = .ok (true, args'))
    (ha : ∀ t ∈ args, t.Argument) (hday : Ty.NoDayList args) (hs : Settled params args)
    {defs : List FTy} (hdefs : Res.mapL FuncParam.typeExpression params = .ok defs)
    {out : Ty} (hret : ret.returnType defs args = .ok out) :
    ∃ t out', evaluateTypeExpression anchor nh ret params variadic args = .ok t ∧
      Refers anchor ret out out' ∧
      (nh = .mirror → t = out'.withNullability NullabilityRequired ∨
        t = out'.withNullability NullabilityNullable) ∧ (nh ≠ .mirror → t = out') := by
  have e := C64_unchanged_partial hm hday
  subst e
  obtain ⟨args1, fds, hcount, hadm, htouch, _, hfd, heach, _⟩ := match_true hm
  have e := touched_list_id htouch hday
  subst e
  have hf := funcDefs_ok hfd
  -- each argument passes
  have hval : ∀ (i : Nat) (p : FuncParam) (t : Ty), paramFor params i = some p → args1[i]? = some t →
      ∃ b, validateType p t nh = .ok b := by
    intro i p t hp ht
    obtain ⟨d, hd, hacc⟩ := matchEach_true heach i t ht
    obtain ⟨p', hpp, hpd⟩ := paramFor_forall₂ hf i d (by simpa using hd)
    rw [hp] at hpp
    cases hpp
    exact validateType_ok hnh hpd hacc (ha t (List.mem_of_getElem? ht)) (hs i t p ht hp)
  have hc : countOk params args1 variadic = true := by
    cases variadic with
    | none => simp only [Admissible] at hadm; simp [countOk, hadm]
    | some v =>
      simp only [Admissible] at hadm
      simp only [countOk, Variadic.validCount, Bool.and_eq_true, decide_eq_true_eq, Bool.or_eq_true]
      omega
  obtain ⟨b, hb⟩ := validateTypes_ok (nh := nh) params args1 (by
    intro i p t hp ht
    refine hval i p t ?_ ht
    rw [paramFor, if_pos (List.getElem?_eq_some_iff.1 hp).1, hp])
  have hrest : (isConsistent variadic && decide (params.length < args1.length)) = true →
      ∃ last c, params.getLast? = some last ∧ validateRest nh last (args1.drop params.length) = .ok c := by
    intro h
    simp only [Bool.and_eq_true, decide_eq_true_eq] at h
    have hne : params ≠ [] := by
      rintro rfl
      cases variadic with
      | none => simp [isConsistent] at h
      | some v => simp [Admissible] at hadm
    obtain ⟨c, hc⟩ := validateRest_ok (nh := nh) (last := params.getLast hne) (args1.drop params.length) (by
      intro t ht
      obtain ⟨j, hj⟩ := List.mem_iff_getElem?.1 ht
      rw [List.getElem?_drop] at hj
      refine hval _ _ t ?_ hj
      rw [paramFor, if_neg (by omega), List.getLast?_eq_some_getLast hne])
    exact ⟨_, c, List.getLast?_eq_some_getLast hne, hc⟩
  have hun : nh ≠ .unset := by rcases hnh with rfl | rfl | rfl <;> simp
  obtain ⟨c, out', hr, heq⟩ : ∃ c out', Refers anchor ret out out' ∧
      evaluateTypeExpression anchor nh ret params variadic args1 = (if nh = .mirror then
        .ok (out'.withNullability (if b && c then NullabilityRequired else NullabilityNullable))
      else .ok out') := by
    unfold evaluateTypeExpression
    simp only [hc, Bool.not_true, Bool.false_eq_true, if_false, hb, Res.ok_bind, hm, hdefs, hret, hun,
      decide_false, Bool.or_false, decide_eq_true_eq]
    by_cases hcond : (isConsistent variadic && decide (params.length < args1.length)) = true
    · obtain ⟨last, c, hl, hv⟩ := hrest hcond
      simp only [hcond, if_true, hl, hv, Res.ok_bind]
      cases ret with
      | udt n v name ps =>
        obtain ⟨n', v', r, ts, rfl⟩ := returnType_udt hret
        exact ⟨c, _, ⟨n', v', r, ts, rfl, rfl⟩, rfl⟩
      | _ => cases out <;> exact ⟨c, _, rfl, rfl⟩
    · rw [if_neg hcond]
      simp only [Res.ok_bind]
      cases ret with
      | udt n v name ps =>
        obtain ⟨n', v', r, ts, rfl⟩ := returnType_udt hret
        exact ⟨true, _, ⟨n', v', r, ts, rfl, rfl⟩, rfl⟩
      | _ => cases out <;> exact ⟨true, _, rfl, rfl⟩
  by_cases hmir : nh = .mirror
  · rw [if_pos hmir] at heq
    refine ⟨_, out', heq, hr, fun _ => ?_, fun h => absurd hmir h⟩
    cases b && c
    · exact .inr rfl
    · exact .inl rfl
  · rw [if_neg hmir] at heq
    exact ⟨_, out', heq, hr, fun h => absurd h hmir, fun _ => rfl⟩

/-- The numbers the integer variables stand for in a call. -/
def Call.Ints (params : List FTy) (args : List Ty) : String → Int → Prop :=
  fun x a => ∃ c, CallInt params args x c ∧ a = c.toInt

/-- C129 in full: a call accepted by `Match` has the type that its declaration gives, if all variables in the
declared return type stand for something. -/
def C129_statement : Prop :=
  ∀ (anchor : String → UInt32) (nh : NullHandling) (ret : FTy) (params : List FuncParam) (defs : List FTy)
    (variadic : Option Variadic) (args args' : List Ty), (nh = .mirror ∨ nh = .declaredOutput ∨ nh = .discrete) → (∀ t ∈ args, t.Argument) →
    Settled params args → Res.mapL FuncParam.typeExpression params = .ok defs →
    matchArguments nh params variadic args = .ok (true, args') → ret.NoDerivation →
    (∃ out, Instance (Call.Ints defs args) (CallType defs args) ret out) →
    ∃ t out out', evaluateTypeExpression anchor nh ret params variadic args = .ok t ∧
      Instance (Call.Ints defs args) (CallType defs args) ret out ∧ Refers anchor ret out out' ∧
      (nh = .mirror → (∃ a ∈ args, a.nullability = NullabilityNullable) →
        t = out'.withNullability NullabilityNullable) ∧
      (nh = .mirror → (¬ ∃ a ∈ args, a.nullability = NullabilityNullable) →
        t = out'.withNullability NullabilityRequired) ∧
      (nh ≠ .mirror → t = out')

/-- declared parameters and arguments, place by place -/
theorem fits_each {nh : NullHandling} {params : List FuncParam} {args : List Ty}
    (hadm : args.length = params.length)
    (hfits : ∀ (i : Nat) (t : Ty), args[i]? = some t →
      ∃ p, params[i]? = some p ∧ ParamFits (fun _ _ => True) (nh = .discrete) p t)
    {defs : List FTy} (hdefs : Res.mapL FuncParam.typeExpression params = .ok defs) (ha : ∀ t ∈ args, t.Argument) :
    FitsAll (fun _ _ => True) SameInteger (nh = .discrete) defs args := by
  induction params generalizing args defs with
  | nil =>
    simp [Res.mapL] at hdefs; subst hdefs
    have : args = [] := List.eq_nil_of_length_eq_zero (by simpa using hadm)
    subst this
    exact .nil
  | cons p ps ih =>
    cases args with
    | nil => simp at hadm
    | cons t ts =>
      simp only [Res.mapL] at hdefs
      obtain ⟨d, hd, hdefs⟩ := Res.bind_eq_ok.1 hdefs
      obtain ⟨ds, hds, hdefs⟩ := Res.bind_eq_ok.1 hdefs
      simp at hdefs; subst hdefs
      refine .cons _ _ _ _ ?_ (ih (by simpa using hadm) ?_ hds (fun u hu => ha u (List.mem_cons_of_mem _ hu)))
      · obtain ⟨q, hq, hf⟩ := hfits 0 t rfl
        simp at hq; subst hq
        cases p with
        | value d' =>
          simp [FuncParam.typeExpression] at hd; subst hd
          exact hf
        | enum x os =>
          simp [FuncParam.typeExpression] at hd; subst hd
          obtain ⟨c, n, v, y, os', rfl, hc⟩ := hf
          rcases ha _ (List.mem_cons_self ..) with h | h
          · simp [Ty.PlanType] at h
          · cases h
            exact .enumArg _ _ _ _ _ _ _ _ _ (by simp)
        | type => exact hf.elim
        | missing => exact hf.elim
      · intro i t ht
        obtain ⟨q, hq, hf⟩ := hfits (i + 1) t (by simpa using ht)
        exact ⟨q, by simpa using hq, hf⟩

/-- the declared parameters and the arguments of an accepted call; a variadic function has all its declared
parameters given, what follows is left out -/
theorem match_fits {nh : NullHandling} {params : List FuncParam} {variadic : Option Variadic} {args args' : List Ty}
    (hm : matchArguments nh params variadic args = .ok (true, args'))
    (hp : ∀ p ∈ params, ∀ d, p.declared = some d → d.NoUdt ∧ (nh = .discrete → d.Plain))
    (hday : ∀ t ∈ args, ¬ t.IsDayInterval) (hlen : params.length ≤ args.length)
    {defs : List FTy} (hdefs : Res.mapL FuncParam.typeExpression params = .ok defs) (ha : ∀ t ∈ args, t.Argument) :
    FitsAll (fun _ _ => True) SameInteger (nh = .discrete) defs (args.take params.length) := by
  obtain ⟨_, hfits⟩ := C27_accepts_partial (fun _ _ => True) hm hp (fun _ _ _ _ => hday)
  refine fits_each (by simp; omega) ?_ hdefs (fun t ht => ha t (List.mem_of_mem_take ht))
  intro i t ht
  rw [List.getElem?_take] at ht
  split at ht
  · rename_i hi
    obtain ⟨q, hq, hf⟩ := hfits i t ht
    rw [paramFor, if_pos hi] at hq
    exact ⟨q, hq, hf⟩
  · simp at ht

/-- arguments after the last declared parameter do not reach the result -/
theorem buildNameValueMap_take : ∀ (ps : List FTy) (args : List Ty) (st : GoMap String GVal),
    buildNameValueMap ps (args.take ps.length) st = buildNameValueMap ps args st
  | [], args, st => by simp [buildNameValueMap]
  | p :: ps, args, st => by
    cases args with
    | nil => simp
    | cons a as =>
      simp only [List.length_cons, List.take_succ_cons, buildNameValueMap, List.tail_cons,
        buildNameValueMap_take ps as]

theorem anyReturnType_take (n : Nullability) (x : String) : ∀ (ps : List FTy) (args : List Ty),
    anyReturnType n x ps (args.take ps.length) = anyReturnType n x ps args
  | [], args => by cases args <;> simp [anyReturnType]
  | p :: ps, args => by
    cases args with
    | nil => simp
    | cons a as =>
      simp only [List.length_cons, List.take_succ_cons, anyReturnType, anyReturnType_take n x ps as]

mutual
theorem returnType_take (ps : List FTy) (args : List Ty) : ∀ (ret : FTy),
    FTy.returnType ps (args.take ps.length) ret = FTy.returnType ps args ret
  | .prim .. => by simp only [FTy.returnType]
  | .any n x => by simp only [FTy.returnType, anyReturnType_take]
  | .enum .. => by simp only [FTy.returnType]
  | .single _ _ p => by
    cases p <;> simp only [FTy.returnType, derivedParams, buildNameValueMap_take]
  | .decimal _ p s => by
    cases p <;> cases s <;> simp only [FTy.returnType, derivedParams, buildNameValueMap_take]
  | .list _ e => by simp only [FTy.returnType, returnType_take ps args e]
  | .map _ k v => by simp only [FTy.returnType, returnType_take ps args k, returnType_take ps args v]
  | .struct _ ts => by simp only [FTy.returnType, returnTypes_take ps args ts]
  | .func _ qs r => by simp only [FTy.returnType, returnTypes_take ps args qs, returnType_take ps args r]
  | .udt _ _ _ qs => by simp only [FTy.returnType, toTypeParams_take ps args qs]
  | .derivation .. => by simp only [FTy.returnType, derivedParams, buildNameValueMap_take]
theorem returnTypes_take (ps : List FTy) (args : List Ty) : ∀ (ts : List FTy),
    FTy.returnTypes ps (args.take ps.length) ts = FTy.returnTypes ps args ts
  | [] => by simp only [FTy.returnTypes]
  | t :: ts => by simp only [FTy.returnTypes, returnType_take ps args t, returnTypes_take ps args ts]
theorem toTypeParams_take (ps : List FTy) (args : List Ty) : ∀ (qs : List FParam),
    FParam.toTypeParams ps (args.take ps.length) qs = FParam.toTypeParams ps args qs
  | [] => by simp only [FParam.toTypeParams]
  | .dataType t :: qs => by
    simp only [FParam.toTypeParams, returnType_take ps args t, toTypeParams_take ps args qs]
  | .integer _ :: qs => by simp only [FParam.toTypeParams, toTypeParams_take ps args qs]
  | .string _ :: qs => by simp only [FParam.toTypeParams, toTypeParams_take ps args qs]
end

/-- nor do they bind variables -/
theorem callInt_take {ps : List FTy} {args : List Ty} {x : String} {c : Int32} :
    CallInt ps (args.take ps.length) x c ↔ CallInt ps args x c := by
  constructor
  · rintro ⟨i, p, t, hp, ht, h⟩
    have hi := (List.getElem?_eq_some_iff.1 hp).1
    rw [List.getElem?_take, if_pos hi] at ht
    exact ⟨i, p, t, hp, ht, h⟩
  · rintro ⟨i, p, t, hp, ht, h⟩
    have hi := (List.getElem?_eq_some_iff.1 hp).1
    exact ⟨i, p, t, hp, by rw [List.getElem?_take, if_pos hi, ht], h⟩

theorem callType_take {ps : List FTy} {args : List Ty} {x : String} {s : Ty} :
    CallType ps (args.take ps.length) x s ↔ CallType ps args x s := by
  constructor
  · rintro ⟨i, p, t, hp, ht, h⟩
    have hi := (List.getElem?_eq_some_iff.1 hp).1
    rw [List.getElem?_take, if_pos hi] at ht
    exact ⟨i, p, t, hp, ht, h⟩
  · rintro ⟨i, p, t, hp, ht, h⟩
    have hi := (List.getElem?_eq_some_iff.1 hp).1
    exact ⟨i, p, t, hp, by rw [List.getElem?_take, if_pos hi, ht], h⟩

theorem callInt_all {ps : List FTy} {args : List Ty} : CallInt ps (args.take ps.length) = CallInt ps args := by
  funext x c
  exact propext callInt_take

theorem callType_all {ps : List FTy} {args : List Ty} : CallType ps (args.take ps.length) = CallType ps args := by
  funext x c
  exact propext callType_take

theorem noDayList_noInterval {args : List Ty} (h : Ty.NoDayList args) : ∀ t ∈ args, ¬ t.IsDayInterval := by
  intro t ht hd
  have := noDayList_mem.1 h t ht
  cases t <;> simp_all [Ty.NoDay, Ty.IsDayInterval]

/-- the declared types of the parameters, one by one -/
theorem typeExpressions_get : ∀ {params : List FuncParam} {defs : List FTy},
    Res.mapL FuncParam.typeExpression params = .ok defs → ∀ (i : Nat) (d : FTy), defs[i]? = some d →
      ∃ p, params[i]? = some p ∧ p.typeExpression = .ok d
  | [], defs, h, i, d, hd => by simp [Res.mapL] at h; subst h; simp at hd
  | p :: ps, defs, h, i, d, hd => by
    simp only [Res.mapL] at h
    obtain ⟨e, he, h⟩ := Res.bind_eq_ok.1 h
    obtain ⟨ds, hds, h⟩ := Res.bind_eq_ok.1 h
    simp only [Res.ok.injEq] at h; subst h
    cases i with
    | zero => simp at hd; subst hd; exact ⟨p, rfl, he⟩
    | succ i => simpa using typeExpressions_get hds i d (by simpa using hd)

/-- ... as many as there are parameters -/
theorem typeExpressions_length : ∀ {params : List FuncParam} {defs : List FTy},
    Res.mapL FuncParam.typeExpression params = .ok defs → defs.length = params.length
  | [], defs, h => by simp [Res.mapL] at h; subst h; rfl
  | p :: ps, defs, h => by
    simp only [Res.mapL] at h
    obtain ⟨e, he, h⟩ := Res.bind_eq_ok.1 h
    obtain ⟨ds, hds, h⟩ := Res.bind_eq_ok.1 h
    simp only [Res.ok.injEq] at h; subst h
    simp [typeExpressions_length hds]

/-- the integer variables of an accepted call stand for one number each -/
theorem match_ints {nh : NullHandling} {params : List FuncParam} {variadic : Option Variadic}
    {args args' : List Ty} (hm : matchArguments nh params variadic args = .ok (true, args')) {defs : List FTy}
    (hdefs : Res.mapL FuncParam.typeExpression params = .ok defs)
    (hflat : ∀ d ∈ defs, d.IsFlat ∨ d.NoInts) (htwice : ∀ n x, FTy.decimal n (.var x) (.var x) ∉ defs) :
    ∀ x a b, CallInt defs args x a → CallInt defs args x b → a = b := by
  rintro x a b ⟨i, d, t, hd, ht, hx⟩ ⟨j, e, u, he, hu, hy⟩
  have call : ∀ {i : Nat} {d : FTy} {t : Ty} {c : Int32}, defs[i]? = some d → args[i]? = some t → IntAt x d t c →
      d.IsFlat ∧ CallAt params (args.take params.length) i d t := by
    intro i d t c hd ht hx
    have hfl := (hflat d (List.mem_of_getElem? hd)).resolve_right (noInts_intAt hx)
    obtain ⟨p, hp, hpd⟩ := typeExpressions_get hdefs i d hd
    have hi := (List.getElem?_eq_some_iff.1 hp).1
    refine ⟨hfl, ⟨p, by rw [paramFor, if_pos hi, hp], ?_⟩, by rw [List.getElem?_take, if_pos hi, ht]⟩
    cases p with
    | value d' => simp [FuncParam.typeExpression] at hpd; subst hpd; rfl
    | enum => simp [FuncParam.typeExpression] at hpd; subst hpd; cases hx
    | type d' =>
      exfalso
      obtain ⟨_, fds, _, _, _, _, hfd, _⟩ := match_true hm
      obtain ⟨e, _, he⟩ := forall₂_get (funcDefs_ok hfd) i _ hp
      simp [FuncParam.def?] at he
    | missing => simp [FuncParam.typeExpression] at hpd
  by_cases hij : i = j
  · subst hij
    rw [hd] at he; cases he
    rw [ht] at hu; cases hu
    obtain ⟨hfl, _⟩ := call hd ht hx
    cases hx with
    | fixed => cases hy; rfl
    | prec => cases hy; rfl
    | precision =>
      cases hy with
      | precision => rfl
      | scale => exact absurd (List.mem_of_getElem? hd) (htwice _ _)
    | scale =>
      cases hy with
      | scale => rfl
      | precision => exact absurd (List.mem_of_getElem? hd) (htwice _ _)
    | _ => simp [FTy.IsFlat] at hfl
  · obtain ⟨f1, c1⟩ := call hd ht hx
    obtain ⟨f2, c2⟩ := call he hu hy
    exact C65_integers_partial hm i j d e t u x a b hij c1 c2 f1 f2 hx hy

theorem plainList_mem : ∀ {ps : List FTy}, (∀ p ∈ ps, p.Plain) → FTy.PlainList ps
  | [], _ => trivial
  | p :: _, h => ⟨h p (by simp), plainList_mem fun q hq => h q (by simp [hq])⟩

/-- the declared types among the type expressions -/
theorem declared_plain {params : List FuncParam} {defs : List FTy}
    (hdefs : Res.mapL FuncParam.typeExpression params = .ok defs) (hplain : ∀ d ∈ defs, d.Plain) :
    ∀ p ∈ params, ∀ d, p.declared = some d → d.Plain := by
  intro p hp d hd
  obtain ⟨i, hi⟩ := List.mem_iff_getElem?.1 hp
  have hl := typeExpressions_length hdefs
  have hlt := (List.getElem?_eq_some_iff.1 hi).1
  obtain ⟨e, he⟩ : ∃ e, defs[i]? = some e := ⟨defs[i]'(by omega), by simp⟩
  obtain ⟨q, hq, hqe⟩ := typeExpressions_get hdefs i e he
  rw [hi] at hq; cases hq
  cases p with
  | value d' =>
    simp [FuncParam.declared] at hd; subst hd
    simp [FuncParam.typeExpression] at hqe; subst hqe
    exact hplain _ (List.mem_of_getElem? he)
  | _ => simp [FuncParam.declared] at hd

/-- the nullability of the result, under MIRROR -/
theorem mirror_nullability {anchor : String → UInt32} {nh : NullHandling} {ret : FTy} {params : List FuncParam}
    {variadic : Option Variadic} {args args' : List Ty} {t : Ty} (ha : ∀ t ∈ args, t.Argument)
    (hs : Settled params args) (hday : ∀ t ∈ args, ¬ t.IsDayInterval)
    (hv : ∀ v, variadic = some v → v.consistent = true ∨ args.length ≤ params.length)
    (hm : matchArguments nh params variadic args = .ok (true, args'))
    (hdecl : ∀ p ∈ params, ∀ d, p.declared = some d → d.Plain)
    (h1 : evaluateTypeExpression anchor nh ret params variadic args = .ok t) : nh = .mirror →
      ((∃ t ∈ args, t.nullability = NullabilityNullable) → t.nullability = NullabilityNullable) ∧
      (¬ (∃ t ∈ args, t.nullability = NullabilityNullable) → t.nullability = NullabilityRequired) := by
  rintro rfl
  refine C28_mirror_partial h1 ?_ hv
  intro i a p hi hp
  refine ⟨hs i a p hi hp, fun hd => ?_⟩
  obtain ⟨_, hf⟩ := C27_accepts_partial (fun _ _ => True) hm
    (fun p hp d hd => ⟨plain_noUdt _ (hdecl p hp d hd), fun _ => hdecl p hp d hd⟩) (fun _ _ _ _ => hday)
  obtain ⟨q, hq, hfq⟩ := hf i a hi
  rw [hp] at hq; cases hq
  cases p with
  | value => simp [FuncParam.declared] at hd
  | enum =>
    obtain ⟨c, n, v, x, os, rfl, _⟩ := hfq
    rcases ha _ (List.mem_of_getElem? hi) with h | h
    · simp [Ty.PlanType] at h
    · cases h; decide
  | type => exact hfq.elim
  | missing => exact hfq.elim

/-- C129 for calls that give every declared parameter at least once, without interval_day arguments, with
parameters that are neither function nor user-defined types and have their integer variables at the top. Missing:
variadic parameters given no argument (`C129_negation_variadic`), the nullability of further arguments of independent
variadic parameters (`C28_negation`), derivation programs (`C129_derived_partial`), interval_day arguments, whose
nullability `Match` overwrites (`C64_negation`), nested integer variables (`C129_negation`), and the restrictions of
C66. -/
theorem C129_call_partial {anchor : String → UInt32} {nh : NullHandling} {ret : FTy} {params : List FuncParam}
    {variadic : Option Variadic} {args args' : List Ty} (hlen : params.length ≤ args.length)
    (hv : nh = .mirror → ∀ v, variadic = some v → v.consistent = true ∨ args.length ≤ params.length)
    (hnh : nh = .mirror ∨ nh = .declaredOutput ∨ nh = .discrete)
    (ha : ∀ t ∈ args, t.Argument) (hs : Settled params args) (hday : Ty.NoDayList args)
    {defs : List FTy} (hdefs : Res.mapL FuncParam.typeExpression params = .ok defs)
    (hm : matchArguments nh params variadic args = .ok (true, args')) (hno : ret.NoDerivation)
    (hplain : ∀ d ∈ defs, d.Plain) (hflat : ∀ d ∈ defs, d.IsFlat ∨ d.NoInts)
    (htwice : ∀ n x, FTy.decimal n (.var x) (.var x) ∉ defs)
    (hkind : ∀ x, IsTimePrecision defs x → ¬ IsLength defs x)
    (hdec : ∀ x ∈ ret.decimalNames, ¬ IsTimePrecision defs x)
    (hbound : ∃ out, Instance (Call.Ints defs args) (CallType defs args) ret out) :
    ∃ t out out', evaluateTypeExpression anchor nh ret params variadic args = .ok t ∧
      Instance (Call.Ints defs args) (CallType defs args) ret out ∧ Refers anchor ret out out' ∧
      (nh = .mirror → (∃ a ∈ args, a.nullability = NullabilityNullable) →
        t = out'.withNullability NullabilityNullable) ∧
      (nh = .mirror → (¬ ∃ a ∈ args, a.nullability = NullabilityNullable) →
        t = out'.withNullability NullabilityRequired) ∧
      (nh ≠ .mirror → t = out') := by
  have hdecl := declared_plain hdefs hplain
  have hfit := match_fits hm (fun p hp d hd => ⟨plain_noUdt _ (hdecl p hp d hd), fun _ => hdecl p hp d hd⟩)
    (noDayList_noInterval hday) hlen hdefs ha
  rw [← typeExpressions_length hdefs] at hfit
  obtain ⟨o, hinst⟩ := hbound
  have htotal := C66_total_partial hfit
  have hsound := C66_sound hfit
  simp only [returnType_take, callInt_all, callType_all] at htotal hsound
  obtain ⟨out, hout⟩ := htotal (match_ints hm hdefs hflat htwice) hflat (plainList_mem hplain) hkind ret o hdec hinst
  obtain ⟨t, out', h1, h2, h3, h4⟩ := C129_resolved (anchor := anchor) hnh hm ha hday hs hdefs hout
  have hnull := fun hmir => mirror_nullability ha hs (noDayList_noInterval hday) (hv hmir) hm hdecl h1 hmir
  refine ⟨t, out, out', h1, hsound ret out hno hout, h2, ?_, ?_, h4⟩
  · intro hmir hex
    have := (hnull hmir).1 hex
    rcases h3 hmir with rfl | rfl
    · rw [wn_nullability] at this; exact absurd this (by decide)
    · rfl
  · intro hmir hex
    have := (hnull hmir).2 hex
    rcases h3 hmir with rfl | rfl
    · rfl
    · rw [wn_nullability] at this; exact absurd this (by decide)

/-- C129 for results computed by a derivation program: the type is the last line of the program with the values
the program computes, under the conditions of `C129_call_partial` and `C32_return_partial`. -/
theorem C129_derived_partial {anchor : String → UInt32} {nh : NullHandling} {as : List (String × DExpr)}
    {final : FTy} {env env' : DEnv} {params : List FuncParam} {variadic : Option Variadic}
    {args args' : List Ty} (hlen : params.length ≤ args.length)
    (hv : nh = .mirror → ∀ v, variadic = some v → v.consistent = true ∨ args.length ≤ params.length)
    (hnh : nh = .mirror ∨ nh = .declaredOutput ∨ nh = .discrete)
    (ha : ∀ t ∈ args, t.Argument) (hs : Settled params args) (hday : Ty.NoDayList args)
    {defs : List FTy} (hdefs : Res.mapL FuncParam.typeExpression params = .ok defs)
    (hm : matchArguments nh params variadic args = .ok (true, args'))
    (hplain : ∀ d ∈ defs, d.Plain) (hflat : ∀ d ∈ defs, d.IsFlat ∨ d.NoInts)
    (htwice : ∀ n x, FTy.decimal n (.var x) (.var x) ∉ defs)
    (hkind : ∀ x, IsTimePrecision defs x → ¬ IsLength defs x)
    (henv : ∀ x v, env x = some v → ¬ IsTimePrecision defs x ∧ ∃ c, CallInt defs args x c ∧ v = .num c.toInt)
    (hrun : Runs env as env') (hfinal : final.IsFlat) {out : Ty}
    (hout : Instance (fun x a => env' x = some (.num a)) (fun _ _ => False) final out) :
    ∃ t, evaluateTypeExpression anchor nh (.derivation as final) params variadic args = .ok t ∧
      (nh = .mirror → (∃ a ∈ args, a.nullability = NullabilityNullable) →
        t = out.withNullability NullabilityNullable) ∧
      (nh = .mirror → (¬ ∃ a ∈ args, a.nullability = NullabilityNullable) →
        t = out.withNullability NullabilityRequired) ∧
      (nh ≠ .mirror → t = out) := by
  have hdecl := declared_plain hdefs hplain
  have hfit := match_fits hm (fun p hp d hd => ⟨plain_noUdt _ (hdecl p hp d hd), fun _ => hdecl p hp d hd⟩)
    (noDayList_noInterval hday) hlen hdefs ha
  rw [← typeExpressions_length hdefs] at hfit
  have hret := C32_return_partial (as := as) (final := final) (env := env) (env' := env') (out := out) hfit
  simp only [returnType_take, callInt_all] at hret
  replace hret := hret (match_ints hm hdefs hflat htwice) hflat hkind henv hrun hfinal hout
  obtain ⟨t, out', h1, h2, h3, h4⟩ := C129_resolved (anchor := anchor) hnh hm ha hday hs hdefs hret
  simp only [Refers] at h2
  subst h2
  have hnull := fun hmir => mirror_nullability ha hs (noDayList_noInterval hday) (hv hmir) hm hdecl h1 hmir
  refine ⟨t, h1, ?_, ?_, h4⟩
  · intro hmir hex
    have := (hnull hmir).1 hex
    rcases h3 hmir with rfl | rfl
    · rw [wn_nullability] at this; exact absurd this (by decide)
    · rfl
  · intro hmir hex
    have := (hnull hmir).2 hex
    rcases h3 hmir with rfl | rfl
    · rfl
    · rw [wn_nullability] at this; exact absurd this (by decide)

-- `f(enum, list<any1>, decimal<P,S>) -> struct<any1?, decimal<38,S>>` called with a nullable list: the result is
-- nullable
example : ∃ t out, evaluateTypeExpression (fun _ => 0) .mirror
      (.struct 2 [.any 1 "any1", .decimal 2 (.concrete 38) (.var "S")])
      [.enum "mode" ["A", "B"], .value (.list 2 (.any 2 "any1")), .value (.decimal 2 (.var "P") (.var "S"))] none
      [.enum true 0 0 "" [], .list 1 0 (.prim .i8 2 0), .decimal 2 0 4 8] = .ok t ∧
    Instance (Call.Ints [.enum false 0 0 "mode" ["A", "B"], .list 2 (.any 2 "any1"),
          .decimal 2 (.var "P") (.var "S")] [.enum true 0 0 "" [], .list 1 0 (.prim .i8 2 0), .decimal 2 0 4 8])
      (CallType [.enum false 0 0 "mode" ["A", "B"], .list 2 (.any 2 "any1"), .decimal 2 (.var "P") (.var "S")]
        [.enum true 0 0 "" [], .list 1 0 (.prim .i8 2 0), .decimal 2 0 4 8])
      (.struct 2 [.any 1 "any1", .decimal 2 (.concrete 38) (.var "S")]) out ∧
    t = out.withNullability NullabilityNullable := by
  obtain ⟨t, out, out', h1, h2, h3, h4, _⟩ := C129_call_partial (anchor := fun _ => 0) (nh := .mirror)
    (ret := .struct 2 [.any 1 "any1", .decimal 2 (.concrete 38) (.var "S")])
    (params := [.enum "mode" ["A", "B"], .value (.list 2 (.any 2 "any1")), .value (.decimal 2 (.var "P") (.var "S"))])
    (args := [.enum true 0 0 "" [], .list 1 0 (.prim .i8 2 0), .decimal 2 0 4 8])
    (args' := [.enum true 0 0 "" [], .list 1 0 (.prim .i8 2 0), .decimal 2 0 4 8]) (variadic := none) (by simp) (by simp)
    (.inl rfl)
    (by simp [Ty.Argument, Ty.PlanType])
    (by
      intro i t p ht hp hd
      match i, ht, hp with
      | 0, ht, hp => simp [paramFor] at hp; subst hp; simp [FuncParam.declared] at hd
      | 1, ht, hp => simp at ht; subst ht; exact .inl rfl
      | 2, ht, hp => simp at ht; subst ht; exact .inr rfl
      | n + 3, ht, hp => simp at ht)
    (by simp [Ty.NoDayList, Ty.NoDay]) (defs := _) rfl
    (by
      simp [matchArguments, matchCount, funcDefs, commonEnum, matchEach, matchArgumentAtCommon, Res.index,
        FTy.matchLoose, enumMatches, hasSyncParams, FTy.leaves, IntParam.isVar, IntParam.str, IntParam.isCompatible,
        validateAny, expandParams, bindAnyTypesList, bindAnyTypes, bindAny, touchAnyList, touchAny,
        anyUsesList, anyUses])
    (by simp [FTy.NoDerivation, FTy.NoDerivationList]) (by simp [FTy.Plain]) (by simp [FTy.IsFlat, FTy.NoInts])
    (by simp) (by rintro x ⟨k, n, h⟩; simp at h) (by rintro x _ ⟨k, n, h⟩; simp at h)
    ⟨.struct 2 0 [.prim .i8 1 0, .decimal 2 0 4 38], .struct _ _ _ (.cons _ _ _ _
      (.anyNullable _ (.prim .i8 2 0) ⟨1, _, _, rfl, rfl, .list _ _ _ _ _ _ (.here ..)⟩)
      (.cons _ _ _ _ (.decimal _ _ _ _ _ rfl ⟨4, ⟨2, _, _, rfl, rfl, .scale ..⟩, rfl⟩) .nil))⟩
  simp only [Refers] at h3
  subst h3
  exact ⟨t, out', h1, h2, h4 rfl ⟨.list 1 0 (.prim .i8 2 0), by simp, rfl⟩⟩

-- the scale of a product of decimals is computed
example : ∃ t, evaluateTypeExpression (fun _ => 0) .mirror
      (.derivation [("S", .bin .plus (.name "S1") (.name "S2"))] (.decimal 2 (.concrete 38) (.var "S")))
      [.value (.decimal 2 (.var "P1") (.var "S1")), .value (.decimal 2 (.var "P2") (.var "S2"))] none
      [.decimal 2 0 2 10, .decimal 1 0 4 8] = .ok t ∧ t = .decimal 1 0 6 38 := by
  obtain ⟨t, h1, h2, _⟩ := C129_derived_partial (anchor := fun _ => 0) (nh := .mirror)
    (as := [("S", .bin .plus (.name "S1") (.name "S2"))]) (final := .decimal 2 (.concrete 38) (.var "S"))
    (params := [.value (.decimal 2 (.var "P1") (.var "S1")), .value (.decimal 2 (.var "P2") (.var "S2"))])
    (args := [.decimal 2 0 2 10, .decimal 1 0 4 8]) (args' := [.decimal 2 0 2 10, .decimal 1 0 4 8])
    (env := fun x => if x = "S1" then some (.num 2) else if x = "S2" then some (.num 4) else none)
    (out := .decimal 2 0 6 38) (variadic := none) (by simp) (by simp) (.inl rfl) (by simp [Ty.Argument, Ty.PlanType])
    (by
      intro i t p ht hp hd
      match i, ht with
      | 0, ht => simp at ht; subst ht; exact .inr rfl
      | 1, ht => simp at ht; subst ht; exact .inl rfl
      | n + 2, ht => simp at ht)
    (by simp [Ty.NoDayList, Ty.NoDay]) (defs := _) rfl
    (by
      simp [matchArguments, matchCount, funcDefs, matchEach, matchArgumentAtCommon, Res.index,
        FTy.matchLoose, hasSyncParams, FTy.leaves, IntParam.isVar, IntParam.str, IntParam.isCompatible,
        validateAny, expandParams, bindAnyTypesList, bindAnyTypes, touchAnyList, touchAny])
    (by simp [FTy.Plain]) (by simp [FTy.IsFlat])
    (by rintro n x h; simp at h; rcases h with ⟨_, rfl, h⟩ | ⟨_, rfl, h⟩ <;> simp at h)
    (by rintro x ⟨k, n, h⟩; simp at h)
    (by
      intro x v hx
      refine ⟨by rintro ⟨k, n, h⟩; simp at h, ?_⟩
      split at hx
      · rename_i he; subst he; simp at hx; subst hx
        exact ⟨2, ⟨0, _, _, rfl, rfl, .scale ..⟩, rfl⟩
      · split at hx
        · rename_i he; subst he; simp at hx; subst hx
          exact ⟨4, ⟨1, _, _, rfl, rfl, .scale ..⟩, rfl⟩
        · simp at hx)
    (.assign _ _ _ _ _ _ (.plus _ _ 2 4 (.name _ _ (by simp)) (.name _ _ (by simp)) (by simp [InInt64]))
      (.done _)) trivial
    (.decimal _ _ _ _ _ rfl (by simp only [IntParam.Stands]; rfl))
  exact ⟨t, h1, h2 rfl ⟨.decimal 1 0 4 8, by simp, rfl⟩⟩

/-- C129 is false as stated: the length in a list of varchars cannot be used for the result. The call is accepted,
but has no type. -/
theorem C129_negation : ¬ C129_statement := by
  intro h
  obtain ⟨t, _, _, h, _⟩ := h (fun _ => 0) .mirror (.single (.fixed .varChar) 2 (.var "L"))
    [.value (.list 2 (.single (.fixed .varChar) 2 (.var "L")))] _ none [.list 2 0 (.fixed .varChar 2 0 3)]
    [.list 2 0 (.fixed .varChar 2 0 3)] (.inl rfl) (by simp [Ty.Argument, Ty.PlanType])
    (by
      intro i t p ht hp hd
      match i, ht with
      | 0, ht => simp at ht; subst ht; exact .inr rfl
      | n + 1, ht => simp at ht) rfl
    (by
      simp [matchArguments, matchCount, funcDefs, matchEach, matchArgumentAtCommon, Res.index, singleMatches,
        FTy.matchLoose, hasSyncParams, FTy.leaves, IntParam.isVar, IntParam.str, IntParam.isCompatible,
        validateAny, expandParams, bindAnyTypesList, bindAnyTypes, touchAnyList, touchAny])
    trivial
    ⟨.fixed .varChar 2 0 3, .fixed _ _ _ _ ⟨3, ⟨0, _, _, rfl, rfl, .list _ _ _ _ _ _ (.fixed ..)⟩, rfl⟩⟩
  simp [evaluateTypeExpression, countOk, isConsistent, validateTypes, validateType, Ty.nullability,
    matchArguments, matchCount, funcDefs, matchEach, matchArgumentAtCommon, Res.index, singleMatches,
    FTy.matchLoose, hasSyncParams, FTy.leaves, FTy.hasParam, IntParam.isVar, IntParam.str, IntParam.isCompatible,
    validateAny, expandParams, bindAnyTypesList, bindAnyTypes, touchAnyList, touchAny,
    Res.mapL, FuncParam.typeExpression, FTy.returnType, derivedParams, buildNameValueMap, FTy.absParams,
    Ty.getParameters, bindNames, assignAll, finalParams, GoMap.get_empty] at h

-- `concat(varchar<L1>, any1...) -> varchar<L1>` with consistent further arguments: one of them nullable, the
-- result is nullable
example : ∃ t, evaluateTypeExpression (fun _ => 0) .mirror (.single (.fixed .varChar) 2 (.var "L1"))
      [.value (.single (.fixed .varChar) 2 (.var "L1")), .value (.any 2 "any1")] (some ⟨1, 0, true⟩)
      [.fixed .varChar 2 0 7, .prim .i8 2 0, .prim .i8 1 0] = .ok t ∧ t = .fixed .varChar 1 0 7 := by
  obtain ⟨t, out, out', h1, h2, h3, h4, _⟩ := C129_call_partial (anchor := fun _ => 0) (nh := .mirror)
    (ret := .single (.fixed .varChar) 2 (.var "L1"))
    (params := [.value (.single (.fixed .varChar) 2 (.var "L1")), .value (.any 2 "any1")])
    (variadic := some ⟨1, 0, true⟩) (args := [.fixed .varChar 2 0 7, .prim .i8 2 0, .prim .i8 1 0])
    (args' := [.fixed .varChar 2 0 7, .prim .i8 2 0, .prim .i8 1 0]) (by simp) (by simp)
    (.inl rfl) (by simp [Ty.Argument, Ty.PlanType])
    (by
      intro i t p ht hp hd
      match i, ht with
      | 0, ht => simp at ht; subst ht; exact .inr rfl
      | 1, ht => simp at ht; subst ht; exact .inr rfl
      | 2, ht => simp at ht; subst ht; exact .inl rfl
      | n + 3, ht => simp at ht)
    (by simp [Ty.NoDayList, Ty.NoDay]) (defs := _) rfl
    (by
      simp [matchArguments, matchCount, validateVariadic, Variadic.validCount, funcDefs, matchEach,
        matchArgumentAtCommon, Res.index, singleMatches, FTy.matchLoose, hasSyncParams, FTy.leaves, IntParam.isVar,
        IntParam.str, IntParam.isCompatible, validateAny, expandParams, bindAnyTypesList, bindAnyTypes, bindAny,
        touchAnyList, touchAny, anyUsesList, anyUses, consistentFrom,
        Ty.withNullability, Ty.afterWithNullability, Ty.nullability, Ty.equals, Variadic.validPosition,
        List.replicate, GoMap.get_empty, GoMap.get_set])
    trivial (by simp [FTy.Plain]) (by simp [FTy.IsFlat, FTy.NoInts]) (by simp)
    (by rintro x ⟨k, n, h⟩; simp at h) (by rintro x _ ⟨k, n, h⟩; simp at h)
    ⟨.fixed .varChar 2 0 7, .fixed _ _ _ _ ⟨7, ⟨0, _, _, rfl, rfl, .fixed ..⟩, rfl⟩⟩
  simp only [Refers] at h3
  subst h3
  refine ⟨t, h1, ?_⟩
  rw [h4 rfl ⟨.prim .i8 1 0, by simp, rfl⟩]
  cases h2 with
  | fixed _ _ _ c hc =>
    simp only [IntParam.Stands] at hc
    obtain ⟨c', ⟨i, p, u, hp, hu, hx⟩, hcc⟩ := hc
    match i, hp, hu with
    | 0, hp, hu =>
      simp at hp hu; subst hp hu
      cases hx
      rw [Int32.toInt_inj.1 hcc]
      rfl
    | 1, hp, hu => simp at hp hu; subst hp hu; cases hx
    | n + 2, hp, hu => simp at hp

/-- ... and for functions whose variadic parameter may be left out: the call without it is accepted, and working
out its type panics. -/
theorem C129_negation_variadic : ¬ C129_statement := by
  intro h
  obtain ⟨t, _, _, h, _⟩ := h (fun _ => 0) .mirror (.single (.fixed .varChar) 2 (.var "L1"))
    [.value (.single (.fixed .varChar) 2 (.var "L1")), .value (.single (.fixed .varChar) 2 (.var "L2"))] _
    (some ⟨0, 0, false⟩) [.fixed .varChar 2 0 7] [.fixed .varChar 2 0 7] (.inl rfl)
    (by simp [Ty.Argument, Ty.PlanType])
    (by
      intro i t p ht hp hd
      match i, ht with
      | 0, ht => simp at ht; subst ht; exact .inr rfl
      | n + 1, ht => simp at ht) rfl
    (by
      simp [matchArguments, matchCount, validateVariadic, Variadic.validCount,
        Variadic.validPosition, funcDefs, matchEach, matchArgumentAtCommon, Res.index, singleMatches,
        FTy.matchLoose, hasSyncParams, FTy.leaves, IntParam.isVar, IntParam.str, IntParam.isCompatible,
        validateAny, expandParams, bindAnyTypesList, bindAnyTypes, touchAnyList, touchAny])
    trivial
    ⟨.fixed .varChar 2 0 7, .fixed _ _ _ _ ⟨7, ⟨0, _, _, rfl, rfl, .fixed ..⟩, rfl⟩⟩
  simp [evaluateTypeExpression, countOk, isConsistent, validateTypes, validateType, Ty.nullability,
    matchArguments, matchCount, validateVariadic, Variadic.validCount,
        Variadic.validPosition, funcDefs, matchEach, matchArgumentAtCommon, Res.index, singleMatches,
    FTy.matchLoose, hasSyncParams, FTy.leaves, IntParam.isVar, IntParam.str, IntParam.isCompatible,
    validateAny, expandParams, bindAnyTypesList, bindAnyTypes, touchAnyList, touchAny,
    Res.mapL, FuncParam.typeExpression, FTy.returnType, derivedParams, buildNameValueMap, FTy.absParams,
    Ty.getParameters, bindNames, assignAll, finalParams, GoMap.get_empty] at h

end Verif

import Verif.Spec.WithParams
import Verif.Props.Derivation
/-!
# WithParameters is the inverse of GetParameters (C126)
-/

namespace Verif

/-! ## C126 -/

/-- C126 in full: a type that is an instance of a declared type, nullability included, is built again by
`WithParameters` of the declared type from its `GetParameters`. -/
def C126_statement : Prop :=
  ∀ (p : FTy) (t : Ty), Parsed p → Fits (fun _ _ => True) SameInteger True p t → t.NoVariation →
    p.withParameters t.getParameters = .ok t

mutual
/-- C126 for simple types, types with integer parameters, lists and maps of anything, and structs of such.
Missing: type variables, function types, user-defined types (`C126_negation_any`, `C126_negation_func`,
`C126_negation_user`), and the derivations of return types, where it panics. -/
theorem C126_build_partial {N : String → UInt32 → Prop} {I : Int32 → Int64 → Prop} :
    ∀ (p : FTy) (t : Ty), Parsed p → p.Buildable → Fits N I True p t → t.NoVariation →
      p.withParameters t.getParameters = .ok t
  | .prim k n v, t, hp, _, hf, hv => by
    cases hf with
    | prim _ _ _ n' v' h =>
      cases hp
      obtain rfl := h trivial
      simp only [Ty.NoVariation] at hv
      subst hv
      rw [FTy.withParameters]
  | .single k n q, t, _, _, hf, hv => by
    cases hf with
    | fixed k _ _ n' v' l h _ =>
      obtain rfl := h trivial
      simp only [Ty.NoVariation] at hv
      subst hv
      simp only [FTy.withParameters, Ty.getParameters, singleWithParameters, Single.make]
      rw [ofInt_toInt32 _ l (toInt32_ofInt l)]
    | prec k _ _ n' v' l h _ =>
      obtain rfl := h trivial
      simp only [Ty.NoVariation] at hv
      subst hv
      simp only [FTy.withParameters, Ty.getParameters, singleWithParameters, Single.make]
  | .decimal n q s, t, _, _, hf, hv => by
    cases hf with
    | decimal _ _ _ n' v' s' p' h _ _ =>
      obtain rfl := h trivial
      simp only [Ty.NoVariation] at hv
      subst hv
      simp only [FTy.withParameters, Ty.getParameters, decimalWithParameters]
      rw [ofInt_toInt32 _ s' (toInt32_ofInt s'), ofInt_toInt32 _ p' (toInt32_ofInt p')]
  | .list n e, t, _, _, hf, hv => by
    cases hf with
    | list _ _ n' v' t h _ =>
      obtain rfl := h trivial
      simp only [Ty.NoVariation] at hv
      obtain ⟨rfl, _⟩ := hv
      simp only [FTy.withParameters, Ty.getParameters, GVal.asType]
  | .map n k e, t, _, _, hf, hv => by
    cases hf with
    | map _ _ _ n' v' t u h _ _ =>
      obtain rfl := h trivial
      simp only [Ty.NoVariation] at hv
      obtain ⟨rfl, _⟩ := hv
      simp only [FTy.withParameters, Ty.getParameters, GVal.asType]
  | .struct n ps, t, hp, hb, hf, hv => by
    cases hf with
    | struct _ _ n' v' ts h hs =>
      obtain rfl := h trivial
      simp only [Ty.NoVariation] at hv
      obtain ⟨rfl, hv⟩ := hv
      simp only [FTy.Buildable] at hb
      have hall : ∀ q ∈ ps, Parsed q := by
        cases hp with
        | struct _ q qs _ h1 h2 =>
          intro x hx
          rcases List.mem_cons.1 hx with rfl | hx
          · exact h1
          · exact h2 x hx
      have hl := build_length hs
      have h1 := build_each ps ts hall hb hs hv
      simp only [FTy.withParameters, Ty.getParameters, List.length_map]
      rw [if_neg (by simp [hl]), h1]
      rfl
  | .any .., _, _, hb, _, _ => by simp [FTy.Buildable] at hb
  | .enum .., _, _, hb, _, _ => by simp [FTy.Buildable] at hb
  | .func .., _, _, hb, _, _ => by simp [FTy.Buildable] at hb
  | .udt .., _, _, hb, _, _ => by simp [FTy.Buildable] at hb
  | .derivation .., _, _, hb, _, _ => by simp [FTy.Buildable] at hb
/-- ... for the fields of a struct -/
theorem build_each {N : String → UInt32 → Prop} {I : Int32 → Int64 → Prop} :
    ∀ (ps : List FTy) (ts : List Ty), (∀ p ∈ ps, Parsed p) → FTy.BuildableList ps → FitsAll N I True ps ts →
      Ty.NoVariationList ts → FTy.withParametersEach ps (ts.map .ty) = .ok ts
  | [], _, _, _, .nil, _ => rfl
  | p :: ps, _, hp, hb, .cons _ t _ ts hf hs, hv => by
    simp only [FTy.BuildableList] at hb
    simp only [Ty.NoVariationList] at hv
    have h1 := C126_build_partial p t (hp p (by simp)) hb.1 hf hv.1
    have h2 := build_each ps ts (fun q hq => hp q (by simp [hq])) hb.2 hs hv.2
    simp only [List.map_cons, FTy.withParametersEach, GVal.asType, h1, h2, Res.ok_bind]
/-- as many fields as declared -/
theorem build_length {N : String → UInt32 → Prop} {I : Int32 → Int64 → Prop} {ps : List FTy} {ts : List Ty} :
    FitsAll N I True ps ts → ts.length = ps.length
  | .nil => rfl
  | .cons _ _ _ _ _ h => by simp [build_length h]
end

/-- `struct<varchar<L>, struct<decimal<P,S>?, list<any1>>>` -/
example : ∃ (p : FTy) (t : Ty), p = .struct 2 [.single (.fixed .varChar) 2 (.concrete 3),
      .struct 2 [.decimal 1 (.concrete 10) (.concrete 2), .list 2 (.any 2 "any1")]] ∧
    t = .struct 2 0 [.fixed .varChar 2 0 3, .struct 2 0 [.decimal 1 0 2 10, .list 2 0 (.prim .i8 2 0)]] ∧
    Parsed p ∧ p.Buildable ∧ Fits (fun _ _ => True) SameInteger True p t ∧ t.NoVariation ∧
    p.withParameters t.getParameters = .ok t := by
  have any1 : Parsed (.any 2 "any1") := .any _ _ (.inr rfl) (.inr ⟨'1', ⟨by decide, by decide⟩, by decide +kernel⟩)
  have h1 : Parsed (.struct 2 [.single (.fixed .varChar) 2 (.concrete 3),
      .struct 2 [.decimal 1 (.concrete 10) (.concrete 2), .list 2 (.any 2 "any1")]]) := by
    refine .struct _ _ _ (.inr rfl) (.single _ _ _ (.inr rfl) trivial) ?_
    intro u hu
    simp only [List.mem_cons, List.not_mem_nil, or_false] at hu
    subst hu
    refine .struct _ _ _ (.inr rfl) (.decimal _ _ _ (.inl rfl) trivial trivial) ?_
    intro u hu
    simp only [List.mem_cons, List.not_mem_nil, or_false] at hu
    subst hu
    exact .list _ _ (.inr rfl) any1
  have h2 : Fits (fun _ _ => True) SameInteger True (.struct 2 [.single (.fixed .varChar) 2 (.concrete 3),
      .struct 2 [.decimal 1 (.concrete 10) (.concrete 2), .list 2 (.any 2 "any1")]])
      (.struct 2 0 [.fixed .varChar 2 0 3, .struct 2 0 [.decimal 1 0 2 10, .list 2 0 (.prim .i8 2 0)]]) :=
    .struct _ _ _ _ _ (fun _ => rfl) (.cons _ _ _ _ (.fixed _ _ _ _ _ _ (fun _ => rfl) rfl)
      (.cons _ _ _ _ (.struct _ _ _ _ _ (fun _ => rfl) (.cons _ _ _ _
        (.decimal _ _ _ _ _ _ _ (fun _ => rfl) rfl rfl)
        (.cons _ _ _ _ (.list _ _ _ _ _ (fun _ => rfl) (.any _ _ _ (fun _ => rfl))) .nil))) .nil))
  have h3 : FTy.Buildable (.struct 2 [.single (.fixed .varChar) 2 (.concrete 3),
      .struct 2 [.decimal 1 (.concrete 10) (.concrete 2), .list 2 (.any 2 "any1")]]) := by
    simp [FTy.Buildable, FTy.BuildableList]
  have h4 : Ty.NoVariation (.struct 2 0 [.fixed .varChar 2 0 3,
      .struct 2 0 [.decimal 1 0 2 10, .list 2 0 (.prim .i8 2 0)]]) := by
    simp [Ty.NoVariation, Ty.NoVariationList]
  exact ⟨_, _, rfl, rfl, h1, h3, h2, h4, C126_build_partial _ _ h1 h3 h2 h4⟩

/-- None of the type parameters that fit declared ones is nil, so all of them are taken. -/
private theorem typeParams_fit {N : String → UInt32 → Prop} {I : Int32 → Int64 → Prop} {S : Prop} :
    ∀ {ps : List FParam} {qs : List TParam}, FitsParams N I S ps qs →
      typeParams (qs.map .tparam) = .ok qs ∧ qs.length = ps.length
  | _, _, .nil => ⟨rfl, rfl⟩
  | _, _, .dataType _ _ _ _ _ hs => by
    obtain ⟨h1, h2⟩ := typeParams_fit hs
    exact ⟨by simp only [List.map_cons, typeParams, h1, Res.ok_bind], by simp [h2]⟩
  | _, _, .integer _ _ _ _ _ hs => by
    obtain ⟨h1, h2⟩ := typeParams_fit hs
    exact ⟨by simp only [List.map_cons, typeParams, h1, Res.ok_bind], by simp [h2]⟩
  | _, _, .string _ _ _ hs => by
    obtain ⟨h1, h2⟩ := typeParams_fit hs
    exact ⟨by simp only [List.map_cons, typeParams, h1, Res.ok_bind], by simp [h2]⟩

/-- C126 for user-defined types, missing the reference: the type built has the parameters and the
nullability, and the reference zero. -/
theorem C126_user_partial {N : String → UInt32 → Prop} {I : Int32 → Int64 → Prop} (n : Nullability)
    (v : UInt32) (x : String) (ps : List FParam) (n' : Nullability) (v' ref : UInt32)
    (qs : List TParam) (hp : Parsed (.udt n v x ps)) (hf : Fits N I True (.udt n v x ps) (.udt n' v' ref qs))
    (hv : v' = 0) :
    (FTy.udt n v x ps).withParameters (Ty.udt n' v' ref qs).getParameters = .ok (.udt n' v' 0 qs) := by
  subst hv
  cases hp
  cases hf with
  | udt _ _ _ _ _ _ _ _ h _ hq =>
    obtain rfl := h trivial
    obtain ⟨h1, h2⟩ := typeParams_fit hq
    simp only [FTy.withParameters, Ty.getParameters, List.length_map]
    rw [if_neg (by simp [h2]), h1]
    rfl

/-- a list parameter and an integer -/
example (x : String) (hx : IsName x) : Parsed (.udt 1 0 x [.dataType (.list 2 (.prim .i8 2 0)), .integer 5]) ∧
    Fits (fun _ _ => True) SameInteger True (.udt 1 0 x [.dataType (.list 2 (.prim .i8 2 0)), .integer 5])
      (.udt 1 0 7 [.dataType (.list 2 0 (.prim .i8 2 0)), .integer 5]) := by
  constructor
  · refine .udt _ _ _ (.inl rfl) hx ?_
    intro p hp
    simp only [List.mem_cons, List.not_mem_nil, or_false] at hp
    rcases hp with rfl | rfl
    · exact .dataType _ (.list _ _ (.inr rfl) (.prim _ _ (.inr rfl)))
    · exact .integer _
  · exact .udt _ _ _ _ _ _ _ _ (fun _ => rfl) trivial (.dataType _ _ _ _
      (.list _ _ _ _ _ (fun _ => rfl) (.prim _ _ _ _ _ fun _ => rfl)) (.integer _ _ _ _ rfl .nil))

/-- C126 for function types all of whose parts are simple types. -/
theorem C126_func_partial {N : String → UInt32 → Prop} {I : Int32 → Int64 → Prop} (n : Nullability)
    (ps : List FTy) (r : FTy) (t : Ty) (hp : Parsed (.func n ps r))
    (hs : ∀ p ∈ r :: ps, ∃ k m v, p = .prim k m v) (hf : Fits N I True (.func n ps r) t)
    (hv : t.NoVariation) : (FTy.func n ps r).withParameters t.getParameters = .ok t := by
  cases hp with
  | func _ _ _ _ hps hr =>
  cases hf with
  | func _ _ _ n' ts u h hts hu =>
    obtain rfl := h trivial
    simp only [Ty.NoVariation] at hv
    have one : ∀ (p : FTy) (t : Ty) (vs : List GVal), Parsed p → (∃ k m v, p = .prim k m v) →
        Fits N I True p t → t.NoVariation → p.withParameters vs = .ok t := by
      rintro p t vs hp ⟨k, m, v, rfl⟩ hf hv
      have := C126_build_partial _ t hp (by simp [FTy.Buildable]) hf hv
      simpa only [FTy.withParameters] using this
    have all : ∀ (ps : List FTy) (ts : List Ty) (vs : List GVal), (∀ p ∈ ps, Parsed p) →
        (∀ p ∈ ps, ∃ k m v, p = .prim k m v) → FitsAll N I True ps ts → Ty.NoVariationList ts →
        FTy.withParametersAll ps vs = .ok ts := by
      intro ps
      induction ps with
      | nil => intro ts vs _ _ h _; cases h; rfl
      | cons p ps ih =>
        intro ts vs h1 h2 h3 h4
        cases h3 with
        | cons _ t _ ts hf hs =>
          simp only [Ty.NoVariationList] at h4
          rw [FTy.withParametersAll, one p t vs (h1 p (by simp)) (h2 p (by simp)) hf h4.1, Res.ok_bind,
            ih ts vs (fun q hq => h1 q (by simp [hq])) (fun q hq => h2 q (by simp [hq])) hs h4.2]
          rfl
    rw [FTy.withParameters, all ps ts _ hps (fun p hp => hs p (by simp [hp])) hts hv.1, Res.ok_bind,
      one r u _ hr (hs r (by simp)) hu hv.2]
    rfl

example : Parsed (.func 2 [.prim .i8 2 0] (.prim .boolean 1 0)) ∧
    Fits (fun _ _ => True) SameInteger True (.func 2 [.prim .i8 2 0] (.prim .boolean 1 0))
      (.func 2 [.prim .i8 2 0] (.prim .boolean 1 0)) :=
  ⟨.func _ _ _ (.inr rfl) (by
      intro p hp
      simp only [List.mem_cons, List.not_mem_nil, or_false] at hp
      subst hp
      exact .prim _ _ (.inr rfl)) (.prim _ _ (.inl rfl)),
    .func _ _ _ _ _ _ (fun _ => rfl) (.cons _ _ _ _ (.prim _ _ _ _ _ fun _ => rfl) .nil)
      (.prim _ _ _ _ _ fun _ => rfl)⟩

/-- **C126 (count).** Lists, structs and user-defined types are only made of exactly as many parameters
as they have; any other number is refused. -/
theorem C126_count (vs : List GVal) :
    (∀ n t, vs.length ≠ 1 → (FTy.list n t).withParameters vs = .err) ∧
    (∀ n ts, vs.length ≠ ts.length → (FTy.struct n ts).withParameters vs = .err) ∧
    (∀ n v x ps, vs.length ≠ ps.length → (FTy.udt n v x ps).withParameters vs = .err) := by
  refine ⟨fun n t h => ?_, fun n ts h => ?_, fun n v x ps h => ?_⟩
  · match vs, h with
    | [], _ => rw [FTy.withParameters]; simp
    | [_], h => simp at h
    | _ :: _ :: _, _ => rw [FTy.withParameters]; simp
  · rw [FTy.withParameters, if_pos h]
  · rw [FTy.withParameters, if_pos h]

/-- One parameter too many. -/
example : (FTy.udt 2 0 "point" [.integer 3]).withParameters [.int 3, .int 4] = .err :=
  (C126_count _).2.2 _ _ _ _ (by simp)

/-- C126 is false as stated: nothing can be built from a type variable, -/
theorem C126_negation_any : ¬ C126_statement := by
  intro h
  have := h (.any 2 "any") (.prim .i8 2 0) (.any _ _ (.inr rfl) (.inl rfl)) (.any _ _ _ fun _ => rfl) (by
    simp [Ty.NoVariation])
  simp [FTy.withParameters] at this

/-- ... the parameters of a function type are each given to all of its parts, -/
theorem C126_negation_func : ¬ C126_statement := by
  intro h
  have := h (.func 2 [.list 2 (.prim .i8 2 0)] (.prim .i8 2 0)) (.func 2 [.list 2 0 (.prim .i8 2 0)] (.prim .i8 2 0))
    (.func _ _ _ (.inr rfl) (by
      intro p hp
      simp only [List.mem_cons, List.not_mem_nil, or_false] at hp
      subst hp
      exact .list _ _ (.inr rfl) (.prim _ _ (.inr rfl))) (.prim _ _ (.inr rfl)))
    (.func _ _ _ _ _ _ (fun _ => rfl) (.cons _ _ _ _ (.list _ _ _ _ _ (fun _ => rfl) (.prim _ _ _ _ _ fun _ => rfl))
      .nil) (.prim _ _ _ _ _ fun _ => rfl))
    (by simp [Ty.NoVariation, Ty.NoVariationList])
  simp [FTy.withParameters, FTy.withParametersAll, Ty.getParameters] at this

/-- ... and a user-defined type loses its reference. -/
theorem C126_negation_user : ¬ C126_statement := by
  intro h
  have := h (.udt 2 0 "point" []) (.udt 2 0 7 [])
    (.udt _ _ _ (.inr rfl) ⟨⟨'p', "oint".toList, by decide +kernel, .inl (by decide), by
      intro d hd
      have : ∀ d ∈ "oint".toList, IsLetter d := by
        intro d hd
        simp only [show "oint".toList = ['o', 'i', 'n', 't'] from by decide +kernel, List.mem_cons,
          List.not_mem_nil, or_false] at hd
        rcases hd with rfl | rfl | rfl | rfl <;> exact .inl (by decide)
      exact .inl (this d hd)⟩, by decide +kernel, by
        intro d _ h
        have h1 := congrArg List.length h
        have : ("point".toList.map Char.toLower).length = 5 := by decide +kernel
        rw [this] at h1
        simp at h1⟩ (by simp))
    (.udt _ _ _ _ _ _ _ _ (fun _ => rfl) trivial .nil) (by simp [Ty.NoVariation, Ty.NoVariationParams])
  simp [FTy.withParameters, Ty.getParameters, typeParams] at this

end Verif

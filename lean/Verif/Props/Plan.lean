import Verif.Lemmas.Plan
import Verif.Lemmas.Collection
/-!
# Properties of plans: C42, C43, C44
-/

namespace Verif

/-! ## C42 -/

/-- A root whose record type can be computed before its names are checked: neither a write nor an
extension relation without decoder. -/
def Rel.SchemaKnown : Rel → Prop
  | .extSingle _ _ (.undecoded _) | .extLeaf _ (.undecoded _) | .extMulti _ _ (.undecoded _) => False
  | .write _ _ _ _ _ _ _ => False
  | _ => True

/-- **C42 (builder).** A plan is built only if the names name, depth first, exactly the fields of the
root's schema; the plan's only root is the given relation with these names. -/
theorem C42_build (root : Option Rel) (names urls : List String) (bs : List Binding)
    (others : List (Option Rel)) (p : Plan)
    (h : planWithBindings root names urls bs others = .ok p) :
    ∃ r ts, root = some r ∧ r.recordType = .ok ts ∧ LabelsFields ts names ∧
      p.getRoots = [⟨r, names⟩] := by
  obtain ⟨r, ts, h1, h2, h3, _, h5, _⟩ := planWithBindings_ok.1 h
  refine ⟨r, ts, h1, h2, h3, ?_⟩
  rw [stored_relations] at h5
  have h5' := Res.ok.inj h5
  rw [Plan.getRoots, ← h5']
  cases others with
  | nil => rfl
  | cons o os =>
      have : List.filterMap Relation.root (os.map (fun o => ({ rel := o } : Relation)) ++ [({} : Relation)]) = [] := by
        simp
      simp [this]

/-- **C42 (builder, exact).** Without bindings and with a computable schema the names decide. -/
theorem C42_build_iff (r : Rel) (names : List String) (others : List (Option Rel)) (ts : List Ty)
    (hts : r.recordType = .ok ts) :
    ((∃ p, buildPlan (some r) names others = .ok p) ↔ LabelsFields ts names) ∧
    (¬ LabelsFields ts names → buildPlan (some r) names others = .err) := by
  constructor
  · constructor
    · rintro ⟨p, hp⟩
      obtain ⟨r', ts', h1, h2, h3, _⟩ := C42_build _ _ _ _ _ _ hp
      cases h1
      rw [hts] at h2
      cases h2
      exact h3
    · intro h
      exact ⟨⟨_, [], []⟩, planWithBindings_ok.2
        ⟨r, ts, rfl, hts, h, rfl, stored_relations _ _, rfl, rfl⟩⟩
  · intro h
    rw [labelsFields_length] at h
    simp [buildPlan, planWithBindings, hts, validateRootNames, h]

/-- a scan with a struct column, for the examples -/
def nestedScan : Rel :=
  .read {} { schema := ⟨["a", "b", "c", "d"], 2, 0,
    [.prim .i32 1 0, .struct 2 0 [.prim .string 2 0, .list 1 0 (.prim .i8 2 0)]]⟩ }
    (.named ["t"] none)

/-- the names of its four fields label it, three names do not -/
example : LabelsFields [.prim .i32 1 0, .struct 2 0 [.prim .string 2 0, .list 1 0 (.prim .i8 2 0)]]
      ["a", "b", "c", "d"] ∧
    ¬ LabelsFields [.prim .i32 1 0, .struct 2 0 [.prim .string 2 0, .list 1 0 (.prim .i8 2 0)]]
      ["a", "b", "c"] ∧
    (∃ p, buildPlan (some nestedScan) ["a", "b", "c", "d"] [] = .ok p) := by
  rw [labelsFields_length, labelsFields_length]
  simp only [depthFirstNameCount, nestedNameCount]
  refine ⟨rfl, by simp, ?_⟩
  exact ((C42_build_iff nestedScan ["a", "b", "c", "d"] [] _ rfl).1).2
    ((labelsFields_length _ _).2 (by simp [depthFirstNameCount, nestedNameCount]))

/-- **C42 for read plans (full statement, false).** -/
def C42_statement : Prop :=
  ∀ (M : Type) (dec : M → Res Rel) (m : PlanMsg M) (p : Plan), Plan.fromProto dec m = .ok p →
    ∀ root ∈ p.getRoots, ∃ ts, root.input.recordType = .ok ts ∧ LabelsFields ts root.names

/-- **C42 for read plans, partial.** Holds for every root that is neither a write nor an extension
relation without decoder; for those the names are not checked. -/
theorem C42_decode_partial (dec : M → Res Rel) (m : PlanMsg M) (p : Plan)
    (h : Plan.fromProto dec m = .ok p) (root : Root) (hr : root ∈ p.getRoots)
    (hk : root.input.SchemaKnown) :
    ∃ ts, root.input.recordType = .ok ts ∧ LabelsFields ts root.names := by
  simp only [Plan.fromProto, Res.bind_eq_ok] at h
  obtain ⟨rels, h1, bs, _, h3⟩ := h
  cases h3
  simp only [Plan.getRoots, List.mem_filterMap] at hr
  obtain ⟨x, hx, hxr⟩ := hr
  obtain ⟨msg, _, hm⟩ := (mapL_ok_mem h1 x).1 hx
  cases msg with
  | unset => cases hm
  | rel m =>
      simp only [Relation.fromProto, Res.bind_eq_ok] at hm
      obtain ⟨r, _, h⟩ := hm
      cases h
      cases hxr
  | root m names =>
      simp only [Relation.fromProto, Res.bind_eq_ok] at hm
      obtain ⟨r, _, _, hn, h⟩ := hm
      cases h
      cases hxr
      have hs : isRecordTypeSupported r = true := by
        cases r with
        | extSingle c i d => cases d <;> simp_all [isRecordTypeSupported, Rel.SchemaKnown]
        | extLeaf c d => cases d <;> simp_all [isRecordTypeSupported, Rel.SchemaKnown]
        | extMulti c i d => cases d <;> simp_all [isRecordTypeSupported, Rel.SchemaKnown]
        | _ => simp_all [isRecordTypeSupported, Rel.SchemaKnown]
      simp only [hs, if_true, Res.bind_eq_ok, validateRootNames] at hn
      obtain ⟨ts, hts, hn⟩ := hn
      refine ⟨ts, hts, (labelsFields_length _ _).2 ?_⟩
      by_contra hne
      simp [hne] at hn

example : ∃ p, Plan.fromProto Res.ok
      { relations := [.root nestedScan ["a", "b", "c", "d"]], bindings := [], urls := [] } = .ok p ∧
    p.getRoots = [⟨nestedScan, ["a", "b", "c", "d"]⟩] ∧ nestedScan.SchemaKnown := by
  refine ⟨⟨[{ root := some ⟨nestedScan, ["a", "b", "c", "d"]⟩ }], [], []⟩, ?_, rfl, trivial⟩
  simp [Plan.fromProto, Res.mapL, Relation.fromProto, nestedScan, isRecordTypeSupported,
    Rel.recordType, Rel.directOutputSchema, RelCommon.remap, Rel.common, validateRootNames,
    depthFirstNameCount, nestedNameCount]

/-- **C42 for read plans (exact, per root).** A root whose schema is known is read exactly if its names
label the schema; any other root is read whatever its names. -/
theorem C42_decode_root (dec : M → Res Rel) (m : M) (names : List String) (r : Rel)
    (hd : dec m = .ok r) :
    (∃ x, Relation.fromProto dec (.root m names) = .ok x) ↔
      (r.SchemaKnown → ∃ ts, r.recordType = .ok ts ∧ LabelsFields ts names) := by
  have hs : isRecordTypeSupported r = true ↔ r.SchemaKnown := by
    cases r with
    | extSingle c i d => cases d <;> simp [isRecordTypeSupported, Rel.SchemaKnown]
    | extLeaf c d => cases d <;> simp [isRecordTypeSupported, Rel.SchemaKnown]
    | extMulti c i d => cases d <;> simp [isRecordTypeSupported, Rel.SchemaKnown]
    | _ => simp [isRecordTypeSupported, Rel.SchemaKnown]
  rw [← hs]
  by_cases h : isRecordTypeSupported r = true
  · simp only [Relation.fromProto, hd, Res.ok_bind, h, if_true, true_imp_iff, Res.bind_eq_ok,
      validateRootNames, labelsFields_length]
    constructor
    · rintro ⟨x, _, ⟨ts, hts, hn⟩, _⟩
      refine ⟨ts, hts, ?_⟩
      by_contra hne
      simp [hne] at hn
    · rintro ⟨ts, hts, hn⟩
      exact ⟨_, (), ⟨ts, hts, by simp [hn]⟩, rfl⟩
  · have h' : isRecordTypeSupported r = false := by simpa using h
    refine ⟨fun _ hk => absurd hk h, fun _ => ?_⟩
    simp [Relation.fromProto, hd, h']

example : ¬ (Rel.extLeaf {} (.undecoded none)).SchemaKnown ∧ nestedScan.SchemaKnown :=
  ⟨id, trivial⟩

/-- **C42 is false of read plans**: the names of a write root are not checked, even though its schema
(the modified records) is known. -/
theorem C42_negation : ¬ C42_statement := by
  intro h
  obtain ⟨ts, h1, h2⟩ := h Rel Res.ok
    { relations := [.root (.write {} ["t"] none { names := ["a"], types := [.prim .i32 1 0] } 4
        nestedScan .modifiedRecords) ["x", "y", "z"]], bindings := [], urls := [] } _ rfl
    ⟨_, _⟩ (List.mem_singleton.2 rfl)
  cases h1
  rw [labelsFields_length] at h2
  simp [depthFirstNameCount, nestedNameCount] at h2

/-! ## C43 -/

/-- **C43 (full statement, false).** Writing a relation never fails (`enc`). -/
def C43_statement : Prop :=
  ∀ (root : Rel) (names : List String) (others : List Rel) (p : Plan),
    buildPlan (some root) names (others.map some) = .ok p →
    p.getRoots = [⟨root, names⟩] ∧ p.getNonRootRelations = others.map some ∧
    ∀ (M : Type) (enc : Rel → M), ∃ m, p.toProto (fun r => .ok (enc r)) = .ok m ∧
      m.relations = .root (enc root) names :: others.map (fun r => .rel (enc r))

/-- **C43, partial.** Without further relations. -/
theorem C43_plan_partial (root : Rel) (names : List String) (p : Plan)
    (h : buildPlan (some root) names [] = .ok p) :
    p.getRoots = [⟨root, names⟩] ∧ p.getNonRootRelations = [] ∧
    ∀ (M : Type) (enc : Rel → M), ∃ m, p.toProto (fun r => .ok (enc r)) = .ok m ∧
      m.relations = [.root (enc root) names] := by
  obtain ⟨r, ts, h1, _, _, _, h5, h6, _⟩ := planWithBindings_ok.1 h
  cases h1
  rw [stored_relations] at h5
  have h5' := Res.ok.inj h5
  simp only at h5'
  refine ⟨by rw [Plan.getRoots, ← h5']; rfl, by rw [Plan.getNonRootRelations, ← h5']; rfl, ?_⟩
  intro M enc
  exact ⟨_, by rw [Plan.toProto, ← h5', h6]; rfl, rfl⟩

example : ∃ p, buildPlan (some nestedScan) ["a", "b", "c", "d"] [] = .ok p :=
  ((C42_build_iff nestedScan ["a", "b", "c", "d"] [] _ rfl).1).2
    ((labelsFields_length _ _).2 (by simp [depthFirstNameCount, nestedNameCount]))

/-- What happens instead with further relations `o, os`: `o` is lost behind the root, an empty
relation takes its place at the end, and the plan can never be written. -/
theorem C43_others_lost (root o : Rel) (os : List Rel) (names : List String) (p : Plan)
    (h : buildPlan (some root) names (some o :: os.map some) = .ok p) :
    p.getNonRootRelations = os.map some ++ [none] ∧
    ∀ (M : Type) (enc : Rel → M), p.toProto (fun r => .ok (enc r)) = .panic := by
  obtain ⟨r, ts, h1, _, _, _, h5, h6, _⟩ := planWithBindings_ok.1 h
  cases h1
  rw [stored_relations] at h5
  have h5' := Res.ok.inj h5
  simp only at h5'
  constructor
  · rw [Plan.getNonRootRelations, ← h5']
    have : ∀ l : List Rel, (List.filter (fun r : Relation => !r.isRoot)
        (l.map some |>.map (fun o => ({ rel := o } : Relation)))).map Relation.rel = l.map some := by
      intro l
      induction l with
      | nil => rfl
      | cons a l ih => simpa [Relation.isRoot] using ih
    have h := this os
    simp only [List.filter_cons, Relation.isRoot, Option.isSome_some, Bool.not_true,
      Bool.false_eq_true, if_false, List.filter_append, List.map_append]
    simp only [Relation.isRoot] at h
    rw [h]
    rfl
  · intro M enc
    have : ∀ l : List Rel, Res.mapL (Relation.toProto fun r => .ok (enc r))
        ((l.map some).map (fun o => ({ rel := o } : Relation)) ++ [({} : Relation)]) = .panic := by
      intro l
      induction l with
      | nil => rfl
      | cons a l ih =>
          simp only [List.map_cons, List.cons_append, Res.mapL_cons, ih]
          rfl
    rw [Plan.toProto, ← h5', Res.mapL_cons, this os]
    rfl

/-- **C43 is false of the code** as soon as there is a further relation. -/
theorem C43_negation : ¬ C43_statement := by
  intro h
  obtain ⟨p, hp⟩ := ((C42_build_iff nestedScan ["a", "b", "c", "d"] [some nestedScan] _ rfl).1).2
    ((labelsFields_length _ _).2 (by simp [depthFirstNameCount, nestedNameCount]))
  have := (h nestedScan _ [nestedScan] p hp).2.1
  rw [(C43_others_lost nestedScan nestedScan [] _ p hp).1] at this
  simp at this

/-! ## C44 -/

/-- **C44 (full statement, false).** Accepted bindings are proper and bind each parameter once; and
bindings are accepted if each fits every occurrence of a parameter that occurs in the plan. -/
def C44_statement : Prop :=
  ∀ (root : Rel) (bs : List Binding), (∀ b ∈ bs, b.value.Typed) →
    (validateBindings root bs = .ok () →
      (∀ b ∈ bs, b.Proper root) ∧ (bs.map Binding.anchor).Nodup) ∧
    ((∀ b ∈ bs, b.Proper root) → (bs.map Binding.anchor).Nodup →
      (∀ b ∈ bs, ∀ t, OccursIn b.anchor t root → FitsType b.value t) →
      validateBindings root bs = .ok ())

/-- **C44, partial.** If bindings are accepted, each names a dynamic parameter that occurs in the
plan and has its type, apart from nullability. Missing: null for required parameters and repeated
bindings are accepted too. -/
theorem C44_accepted_partial (root : Rel) (bs : List Binding) (ht : ∀ b ∈ bs, b.value.Typed)
    (h : validateBindings root bs = .ok ()) :
    ∀ b ∈ bs, ∃ t, OccursIn b.anchor t root ∧ FitsType b.value t := by
  intro b hb
  have hne : ¬ bs.length = 0 := by
    intro h0
    rw [List.length_eq_zero_iff.1 h0] at hb
    cases hb
  rw [validateBindings, if_neg hne] at h
  obtain ⟨t, h1, h2⟩ := ((checkBindings_iff bs ht).1.1 h) b hb
  exact ⟨t, (collect_sound h1).occurs, h2⟩

/-- **C44, partial (acceptance).** Bindings are accepted if each parameter occurs in an expression of
a project, filter, join or sort where `Visit` reaches it, and the value has the type of every such
occurrence. Missing: parameters that occur elsewhere. -/
theorem C44_complete_partial (root : Rel) (bs : List Binding) (ht : ∀ b ∈ bs, b.value.Typed)
    (ho : ∀ b ∈ bs, ∃ t, ShownIn b.anchor t root)
    (hf : ∀ b ∈ bs, ∀ t, ShownIn b.anchor t root → FitsType b.value t) :
    validateBindings root bs = .ok () := by
  unfold validateBindings
  split
  · rfl
  · rw [(checkBindings_iff bs ht).1]
    intro b hb
    obtain ⟨t, h⟩ := ho b hb
    obtain ⟨t', h'⟩ := collect_complete h
    exact ⟨t', h', hf b hb t' (collect_sound h')⟩

/-- **C44, rejection.** A binding whose parameter does not occur, or that fits no occurrence, is
rejected with an error (never a panic). -/
theorem C44_rejected (root : Rel) (bs : List Binding) (ht : ∀ b ∈ bs, b.value.Typed) (b : Binding)
    (hb : b ∈ bs) (h : ∀ t, OccursIn b.anchor t root → ¬ FitsType b.value t) :
    validateBindings root bs = .err := by
  cases hv : validateBindings root bs with
  | err => rfl
  | ok u =>
      obtain ⟨t, h1, h2⟩ := C44_accepted_partial root bs ht hv b hb
      exact absurd h2 (h t h1)
  | panic =>
      unfold validateBindings at hv
      split at hv
      · cases hv
      · exact absurd hv (checkBindings_iff bs ht).2

/-- **C44, plans.** A plan is built with bindings only if they pass this check. -/
theorem C44_plan_partial (root : Option Rel) (names urls : List String) (bs : List Binding)
    (others : List (Option Rel)) (p : Plan) (ht : ∀ b ∈ bs, b.value.Typed)
    (h : planWithBindings root names urls bs others = .ok p) :
    p.bindings = bs ∧ ∃ r, root = some r ∧
      ∀ b ∈ bs, ∃ t, OccursIn b.anchor t r ∧ FitsType b.value t := by
  obtain ⟨r, ts, h1, _, _, h4, _, h6, _⟩ := planWithBindings_ok.1 h
  exact ⟨h6, r, h1, C44_accepted_partial r bs ht h4⟩

/-- a filter comparing with parameter 7, a required i32 -/
def paramFilter : Rel :=
  .filter {} nestedScan
    (.scalar ⟨1, "equal", [], .prim .boolean 2 0⟩
      [.expr (.fieldRef .rootReference (.seg (.structField 0 .nil)) (some (.prim .i32 1 0))),
       .expr (.dynParam (.prim .i32 2 0) 7)]) none

theorem paramFilter_shown : ShownIn 7 (.prim .i32 2 0) paramFilter :=
  .here _ _ trivial (List.mem_singleton.2 rfl)
    (.part (.dynParam (.prim .i32 2 0) 7) _ (by simp [Expr.shownParts, Expr.parts, EArg.exprs]) .refl)

theorem paramFilter_only (p : UInt32) (t : Ty) (h : ShownIn p t paramFilter) :
    p = 7 ∧ t = .prim .i32 2 0 := by
  have := allWalked_of_shown h
  simp only [paramFilter, nestedScan, Rel.allWalked, Rel.walkedExprs, List.flatMap_nil,
    List.flatMap_cons, Expr.walk, EArg.walkList, List.nil_append, List.append_nil, List.mem_cons,
    List.mem_append, reduceCtorEq, false_or, List.not_mem_nil, or_false] at this
  simpa [and_comm] using this

/-- the hypotheses of the theorems above are met by a binding of 5 to parameter 7 -/
example : (∀ b ∈ [Binding.mk 7 (.prim (.int32 5) (.prim .i32 2 0))], b.value.Typed) ∧
    validateBindings paramFilter [⟨7, .prim (.int32 5) (.prim .i32 2 0)⟩] = .ok () := by
  have ht : ∀ b ∈ [Binding.mk 7 (.prim (.int32 5) (.prim .i32 2 0))], b.value.Typed := by
    intro b hb
    rw [List.mem_singleton] at hb
    subst hb
    exact ⟨_, rfl, by simp [Ty.PlanType]⟩
  refine ⟨ht, C44_complete_partial _ _ ht ?_ ?_⟩
  · intro b hb
    rw [List.mem_singleton] at hb
    subst hb
    exact ⟨_, paramFilter_shown⟩
  · intro b hb t h
    rw [List.mem_singleton] at hb
    subst hb
    obtain ⟨_, rfl⟩ := paramFilter_only _ _ h
    exact ⟨_, rfl, rfl⟩

/-- ... and a binding of parameter 8 is rejected -/
example : validateBindings paramFilter [⟨8, .prim (.int32 5) (.prim .i32 2 0)⟩] = .err := by
  have ht : ∀ b ∈ [Binding.mk 8 (.prim (.int32 5) (.prim .i32 2 0))], b.value.Typed := by
    intro b hb
    rw [List.mem_singleton] at hb
    subst hb
    exact ⟨_, rfl, by simp [Ty.PlanType]⟩
  cases hv : validateBindings paramFilter [⟨8, .prim (.int32 5) (.prim .i32 2 0)⟩] with
  | err => rfl
  | ok u =>
      rw [validateBindings, if_neg (by simp)] at hv
      obtain ⟨t, h1, _⟩ := ((checkBindings_iff _ ht).1.1 hv) _ (List.mem_singleton.2 rfl)
      exact absurd (paramFilter_only _ _ (collect_sound h1)).1 (by decide)
  | panic =>
      rw [validateBindings, if_neg (by simp)] at hv
      exact absurd hv (checkBindings_iff _ ht).2

theorem nestedScan_clean (p : UInt32) (t : Ty) : ¬ OccursIn p t nestedScan := by
  intro h
  cases h with
  | here _ e he hx =>
      simp only [nestedScan, Rel.ownExprs, List.append_nil, List.mem_cons, List.not_mem_nil, or_false,
        or_self] at he
      subst he
      cases hx with
      | part c _ hc _ => simp [Expr.parts] at hc
  | input _ i hi _ => simp [nestedScan, Rel.getInputs] at hi

/-- **C44 is false of the code**: null is accepted for a required parameter. -/
theorem C44_negation_null : ∃ b : Binding, b.value.IsNullValue ∧ b.value.Typed ∧
    validateBindings paramFilter [b] = .ok () ∧
    ∀ t, OccursIn b.anchor t paramFilter → t.nullability = NullabilityRequired := by
  have ht : ∀ b ∈ [Binding.mk 7 (.null (.prim .i32 1 0))], b.value.Typed := by
    intro b hb
    rw [List.mem_singleton] at hb
    subst hb
    exact ⟨_, rfl, by simp [Ty.PlanType]⟩
  refine ⟨⟨7, .null (.prim .i32 1 0)⟩, trivial, ht _ (List.mem_singleton.2 rfl),
    C44_complete_partial _ _ ht ?_ ?_, ?_⟩
  · intro b hb
    rw [List.mem_singleton] at hb
    subst hb
    exact ⟨_, paramFilter_shown⟩
  · intro b hb t h
    rw [List.mem_singleton] at hb
    subst hb
    obtain ⟨_, rfl⟩ := paramFilter_only _ _ h
    exact ⟨_, rfl, rfl⟩
  · intro t h
    cases h with
    | here _ e he hx =>
        simp only [paramFilter, Rel.ownExprs, List.mem_singleton] at he
        subst he
        cases hx with
        | part c _ hc hx =>
            simp only [Expr.parts, EArg.exprs, List.flatMap_cons, List.flatMap_nil, List.append_nil,
              List.cons_append, List.nil_append, List.mem_cons, List.not_mem_nil, or_false] at hc
            rcases hc with rfl | rfl
            · cases hx with
              | part c _ hc _ => simp [Expr.parts] at hc
            · cases hx with
              | refl => rfl
              | part c _ hc _ => simp [Expr.parts] at hc
    | input _ i hi hx =>
        simp only [paramFilter, Rel.getInputs, List.mem_singleton] at hi
        subst hi
        exact absurd hx (nestedScan_clean _ _)

/-- ... a parameter may be bound twice, to different values. -/
theorem C44_negation_twice : ¬ C44_statement := by
  intro h
  have ht : ∀ b ∈ [Binding.mk 7 (.prim (.int32 5) (.prim .i32 2 0)),
      Binding.mk 7 (.prim (.int32 6) (.prim .i32 2 0))], b.value.Typed := by
    intro b hb
    simp only [List.mem_cons, List.not_mem_nil, or_false] at hb
    rcases hb with rfl | rfl <;> exact ⟨_, rfl, by simp [Ty.PlanType]⟩
  have hv : validateBindings paramFilter [Binding.mk 7 (.prim (.int32 5) (.prim .i32 2 0)),
      Binding.mk 7 (.prim (.int32 6) (.prim .i32 2 0))] = .ok () := by
    refine C44_complete_partial _ _ ht ?_ ?_
    · intro b hb
      simp only [List.mem_cons, List.not_mem_nil, or_false] at hb
      rcases hb with rfl | rfl <;> exact ⟨_, paramFilter_shown⟩
    · intro b hb t h
      simp only [List.mem_cons, List.not_mem_nil, or_false] at hb
      rcases hb with rfl | rfl
      all_goals
        obtain ⟨_, rfl⟩ := paramFilter_only _ _ h
        exact ⟨_, rfl, rfl⟩
  exact absurd ((h _ _ ht).1 hv).2 (by simp)

/-- a grouping by parameter 7 -/
def paramAggregate : Rel := .aggregate {} nestedScan [] [.dynParam (.prim .i32 2 0) 7] [[0]] none

/-- ... a parameter in an aggregate is not found (nor are those in measures, read filters, virtual
tables, hash and merge joins), so its binding is rejected. -/
theorem C44_negation_aggregate : ¬ C44_statement := by
  intro h
  have ht : ∀ b ∈ [Binding.mk 7 (.prim (.int32 5) (.prim .i32 2 0))], b.value.Typed := by
    intro b hb
    rw [List.mem_singleton] at hb
    subst hb
    exact ⟨_, rfl, by simp [Ty.PlanType]⟩
  have hocc : OccursIn 7 (.prim .i32 2 0) paramAggregate :=
    .here _ _ (by simp [paramAggregate, Rel.ownExprs]) .refl
  have honly : ∀ p t, OccursIn p t paramAggregate → t = .prim .i32 2 0 := by
    intro p t h
    cases h with
    | here _ e he hx =>
        simp only [paramAggregate, Rel.ownExprs, List.flatMap_nil, List.append_nil,
          List.mem_singleton] at he
        subst he
        cases hx with
        | refl => rfl
        | part c _ hc _ => simp [Expr.parts] at hc
    | input _ i hi hx =>
        simp only [paramAggregate, Rel.getInputs, List.mem_singleton] at hi
        subst hi
        exact absurd hx (nestedScan_clean _ _)
  have := (h paramAggregate _ ht).2
    (by
      intro b hb
      rw [List.mem_singleton] at hb
      subst hb
      exact ⟨_, hocc, ⟨_, rfl, rfl⟩, fun h => h.elim⟩)
    (by simp)
    (by
      intro b hb t h
      rw [List.mem_singleton] at hb
      subst hb
      obtain rfl := honly _ _ h
      exact ⟨_, rfl, rfl⟩)
  rw [validateBindings, if_neg (by simp)] at this
  obtain ⟨t, h1, _⟩ := ((checkBindings_iff _ ht).1.1 this) _ (List.mem_singleton.2 rfl)
  have h2 := allWalked_of_shown (collect_sound h1)
  simp [paramAggregate, nestedScan, Rel.allWalked, Rel.walkedExprs] at h2

/-- ... and reading a plan checks no bindings at all. -/
theorem C44_negation_decode : ∃ p, Plan.fromProto Res.ok
      { relations := [.rel nestedScan],
        bindings := [(9, PLit.mk false 0 (.i32 5))], urls := [] } = .ok p ∧
    (∃ b ∈ p.bindings, b.anchor = 9) ∧ p.getNonRootRelations = [some nestedScan] ∧
    ∀ t, ¬ OccursIn 9 t nestedScan := by
  refine ⟨_, rfl, ⟨_, List.mem_singleton.2 rfl, rfl⟩, rfl, fun t => nestedScan_clean 9 t⟩

end Verif

import Verif.Lemmas.Attrs
import Verif.Lemmas.FuncName
/-!
# C115: attributes of functions
-/

namespace Verif

/-- C115, as stated: the functions of a loaded file have the attributes written in the file and the defaults of
the extension format for the others, and declarations made on the fly have the defaults, or the attributes they
are asked to have. -/
def C115_statement : Prop :=
  (∀ (c c' : Collection) (f : RawFile), c.Reachable → c.load (some f.file) = (c', .ok ()) →
    (∀ (k : FuncKind) (n : String) (v : Variant), c'.getFunc k ⟨f.urn, n⟩ = some v →
      ∃ w d i, (w, d) ∈ f.declared ∧ w.ServesAs k ∧ i ∈ d.impls ∧ v.Answers k f.urn d.name w i) ∧
    ∀ (k w : FuncKind) (d : RawDecl) (i : RawImpl) (n : String), f.Offers k n w d i →
      ∃ v, c'.getFunc k ⟨f.urn, n⟩ = some v) ∧
  (∀ (d : RawDecl) (k : FuncKind) (urn : String), d.decl.resolveURN urn = d.decl.variants k urn) ∧
  (∀ (k : FuncKind) (id : ExtId) (v : Variant), newFuncVariant k id = .ok v → v.Defaults k) ∧
  ∀ (k : FuncKind) (id : ExtId) (o : VariantOpts) (v : Variant), newFuncVariantOpts k id o = .ok v → v.Has k o

/-! ## Functions of a loaded file -/

/-- C115: whatever a collection finds for the URN of a file it has loaded, under a compound name or a short one,
answers for something written in the file, with the attributes written there and the defaults for the others. -/
theorem C115_loaded (c c' : Collection) (f : RawFile) (hc : c.Reachable) (h : c.load (some f.file) = (c', .ok ()))
    (k : FuncKind) (n : String) (v : Variant) (hv : c'.getFunc k ⟨f.urn, n⟩ = some v) :
    ∃ w d i, (w, d) ∈ f.declared ∧ w.ServesAs k ∧ i ∈ d.impls ∧ v.Answers k f.urn d.name w i := by
  obtain ⟨hval, _, _, _, _, _, h7, _, _⟩ := load_ok h
  have ht := reachable_tidy hc f.urn hval.2.1
  have key : ∀ m, (c'.funcs k).get ⟨f.urn, m⟩ = some v →
      ∃ w d i, (w, d) ∈ f.declared ∧ w.ServesAs k ∧ i ∈ d.impls ∧ v.Answers k f.urn d.name w i := by
    intro m hw
    rcases h7 k _ v hw with h | ⟨d, hd, hvd, _, _⟩
    · rw [ht.1] at h; cases h
    · exact answers_of_step hd hvd
  simp only [Collection.getFunc, checkMaps] at hv
  split at hv
  · rename_i w hw
    cases hv
    exact key _ hw
  · split at hv
    · exact key _ hv
    · cases hv

/-- C115: everything written in the file is found under its compound name, and what is found answers for an
implementation with that compound name. -/
theorem C115_offered (c c' : Collection) (f : RawFile) (hc : c.Reachable) (h : c.load (some f.file) = (c', .ok ()))
    (k w : FuncKind) (d : RawDecl) (i : RawImpl) (n : String) (ho : f.Offers k n w d i) :
    ∃ v, c'.getFunc k ⟨f.urn, n⟩ = some v ∧ ∃ w' d' i', f.Offers k n w' d' i' ∧ v.Answers k f.urn d'.name w' i' := by
  obtain ⟨hd, hw, hi, sig, hs, rfl⟩ := ho
  obtain ⟨v, hv, _, hcn⟩ := C67_found c c' f.file hc h (w, d.decl) (mem_file_declared.2 ⟨d, hd, rfl⟩)
    i.unmarshal.setDefaults.impl (List.mem_map.2 ⟨i, hi, rfl⟩) k hw sig hs
  obtain ⟨w', d', i', h1, h2, h3, h4⟩ := C115_loaded c c' f hc h k _ v hv
  exact ⟨v, hv, w', d', i', ⟨h1, h2, h3, h4.compoundName hcn⟩, h4⟩

/-- C115: an implementation with a compound name of its own is the one that is found. -/
theorem C115_attributes (c c' : Collection) (f : RawFile) (hc : c.Reachable)
    (h : c.load (some f.file) = (c', .ok ())) (k w : FuncKind) (d : RawDecl) (i : RawImpl) (n : String)
    (ho : f.Offers k n w d i)
    (hu : ∀ w' d' i', f.Offers k n w' d' i' → w' = w ∧ d'.name = d.name ∧ i' = i) :
    ∃ v, c'.getFunc k ⟨f.urn, n⟩ = some v ∧ v.Answers k f.urn d.name w i := by
  obtain ⟨v, hv, w', d', i', ho', ha⟩ := C115_offered c c' f hc h k w d i n ho
  obtain ⟨rfl, e, rfl⟩ := hu _ _ _ ho'
  exact ⟨v, hv, e ▸ ha⟩

/-- a file with a scalar function, most attributes left out, and an aggregate function -/
def rawFile : RawFile where
  urn := "extension:acme:attrs"
  dependencies := []
  metadata := none
  types := []
  variations := []
  scalars := [⟨"now", "", [⟨[], some (.prim .timestampTz 2 0), none, none, none, some "DECLARED_OUTPUT", none, 0,
    some true, some false, none, none⟩]⟩,
    ⟨"add", "", [⟨[.value (.prim .i32 1 0)], some (.prim .i32 1 0), none, none, none, none, some ⟨some 1, none, none⟩, 1,
      none, none, none, none⟩]⟩]
  aggregates := [⟨"sum", "", [⟨[.value (.prim .i32 1 0)], some (.prim .i64 1 0), none, none, none, none, none, 2,
    none, none, some true, none⟩]⟩]
  windows := []

theorem rawFile_loads : Collection.zero.load (some rawFile.file) = ((Collection.zero.load (some rawFile.file)).1, .ok ()) :=
  rfl

theorem rawFile_offers : rawFile.Offers .window "sum:i32" .aggregate rawFile.aggregates[0] rawFile.aggregates[0].impls[0] :=
  ⟨by simp [RawFile.declared, rawFile], .inr ⟨rfl, rfl⟩, by simp [rawFile], "i32", by decide +kernel, by decide +kernel⟩

/-- The hypotheses are met by the file; the answer for the aggregate function as a window function is
deterministic, ordered, handles nullability by MIRROR and streams. -/
example : ∃ v, (Collection.zero.load (some rawFile.file)).1.getFunc .window ⟨"extension:acme:attrs", "sum:i32"⟩ = some v ∧
    v.impl.attrs.deterministic = true ∧ v.impl.attrs.ordered = true ∧ v.impl.nullability = .mirror ∧
    v.impl.windowType = "STREAMING" ∧ v.impl.decomposable = "NONE" := by
  obtain ⟨v, hv, ha⟩ := C115_attributes _ _ rawFile .zero rawFile_loads _ _ _ _ _ rawFile_offers
    (by
      rintro w' d' i' ⟨h1, h2, h3, sig, h4, h5⟩
      simp only [RawFile.declared, rawFile, List.map_cons, List.map_nil, List.mem_append, List.mem_cons,
        Prod.mk.injEq, List.not_mem_nil, or_false] at h1
      rcases h1 with (⟨rfl, rfl⟩ | ⟨rfl, rfl⟩) | ⟨rfl, rfl⟩
      · rcases h2 with h2 | ⟨h2, _⟩ <;> cases h2
      · rcases h2 with h2 | ⟨h2, _⟩ <;> cases h2
      · simp only [List.mem_cons, List.not_mem_nil, or_false] at h3
        exact ⟨rfl, rfl, h3⟩)
  exact ⟨v, hv, ha.deterministic, ha.ordered, ha.nullability.1 rfl, (ha.windowType rfl).2 rfl,
    (ha.decomposable (by simp)).1 rfl⟩

/-- what is written wins over the defaults -/
example : ∃ v, (Collection.zero.load (some rawFile.file)).1.getFunc .scalar ⟨"extension:acme:attrs", "now"⟩ = some v ∧
    v.impl.attrs.deterministic = false ∧ v.impl.attrs.sessionDependent = true ∧ v.impl.nullability = .declaredOutput :=
  ⟨_, rfl, rfl, rfl, rfl⟩

/-! ## ResolveURN -/

/-- C115 (partial): `ResolveURN` gives the variants that `GetVariants` gives, for scalar functions and where
decomposability and the type of window are written. -/
theorem C115_resolveURN_partial (d : RawDecl) (k : FuncKind) (urn : String)
    (h : ∀ i ∈ d.impls, (k ≠ .scalar → ∃ s, i.decomposable = some s ∧ s ≠ "") ∧
      (k = .window → ∃ s, i.windowType = some s ∧ s ≠ "")) :
    d.decl.resolveURN urn = d.decl.variants k urn := by
  simp only [FuncDecl.resolveURN, FuncDecl.variants]
  refine List.map_congr_left fun j hj => ?_
  simp only [RawDecl.decl, List.mem_map] at hj
  obtain ⟨i, hi, rfl⟩ := hj
  obtain ⟨h1, h2⟩ := h i hi
  congr 1
  cases k
  · rfl
  · obtain ⟨s, e, hs⟩ := h1 (by simp)
    simp [FuncKind.fill, GoImpl.impl, GoImpl.setDefaults, RawImpl.unmarshal, e, hs]
  · obtain ⟨s, e, hs⟩ := h1 (by simp)
    obtain ⟨t, e', ht⟩ := h2 rfl
    simp [FuncKind.fill, GoImpl.impl, GoImpl.setDefaults, RawImpl.unmarshal, e, hs, e', ht]

example : ∀ i ∈ [(⟨[], none, none, some "MANY", none, none, none, 0, none, none, none, none⟩ : RawImpl)],
    (FuncKind.aggregate ≠ .scalar → ∃ s, i.decomposable = some s ∧ s ≠ "") ∧
      (FuncKind.aggregate = .window → ∃ s, i.windowType = some s ∧ s ≠ "") := by simp

/-- C115, negation: where decomposability is left out, the variants of `ResolveURN` have none at all. -/
theorem C115_negation_resolveURN (d : RawDecl) (urn : String) (i : RawImpl) (hi : i ∈ d.impls)
    (h : i.decomposable = none) :
    (∃ v ∈ d.decl.resolveURN urn, v.impl.decomposable = "") ∧
    ∀ v ∈ d.decl.variants .aggregate urn, v.impl.decomposable ≠ "" := by
  refine ⟨⟨_, List.mem_map.2 ⟨_, List.mem_map.2 ⟨i, hi, rfl⟩, rfl⟩, ?_⟩, ?_⟩
  · simp [GoImpl.impl, GoImpl.setDefaults, RawImpl.unmarshal, h]
  · intro v hv
    simp only [FuncDecl.variants, List.mem_map] at hv
    obtain ⟨j, _, rfl⟩ := hv
    simp only [FuncKind.fill]
    split
    · simp
    · assumption

example : ∃ d ∈ rawFile.aggregates, ∃ i ∈ d.impls, i.decomposable = none := by simp [rawFile]

/-! ## Declarations made on the fly -/

/-- C115 (partial): of the attributes of a declaration made on the fly all but two have their defaults. -/
theorem C115_made_partial (k : FuncKind) (id : ExtId) (v : Variant) (h : newFuncVariant k id = .ok v) :
    v.impl.attrs.sessionDependent = false ∧ v.impl.attrs.ordered = false ∧ v.impl.attrs.maxSet = 0 ∧
    v.impl.variadic = none ∧ (k ≠ .scalar → v.impl.decomposable = "NONE") ∧
    (k = .window → v.impl.windowType = "PARTITION") := by
  simp only [newFuncVariant, Res.bind_eq_ok] at h
  obtain ⟨r, _, h⟩ := h
  cases h
  cases k <;> simp [FuncKind.fill]

theorem made_i32 (k : FuncKind) : newFuncVariant k ⟨"extension:acme:f", "f:i32"⟩ =
    .ok ⟨"f", "", "extension:acme:f", k.fill ⟨[.value (.prim .i32 2 0)], none, none, "", "", .unset, none, {}⟩⟩ := by
  have : parseFuncName "f:i32" = .ok ("f", [.value (.prim .i32 2 0)]) := by rfl
  simp only [newFuncVariant, this, Res.ok_bind]

example : ∃ v, newFuncVariant .window ⟨"extension:acme:f", "f:i32"⟩ = .ok v := ⟨_, made_i32 _⟩

/-- C115, negation: no declaration made on the fly is deterministic or handles nullability by MIRROR, both being
defaults. -/
theorem C115_negation_made (k : FuncKind) (id : ExtId) (v : Variant) (h : newFuncVariant k id = .ok v) :
    v.impl.attrs.deterministic = false ∧ v.impl.nullability = .unset ∧ ¬ v.Defaults k := by
  simp only [newFuncVariant, Res.bind_eq_ok] at h
  obtain ⟨r, _, h⟩ := h
  cases h
  refine ⟨by cases k <;> rfl, by cases k <;> rfl, fun hd => ?_⟩
  have := hd.deterministic
  cases k <;> cases this

/-- without a way of handling nullability nothing matches a parameter -/
theorem matchEach_unset {defs : List FTy} {variadic : Option Variadic} (pos : Nat) (t : Ty) (ts : List Ty) :
    matchEach .unset defs variadic pos (t :: ts) ≠ .ok true := by
  simp only [matchEach]
  intro h
  rw [Res.bind_eq_ok] at h
  obtain ⟨b, h1, h2⟩ := h
  cases b with
  | false => cases h2
  | true =>
    simp only [matchArgumentAtCommon] at h1
    have key : ∀ (o : Bool) (x : Res FTy), (if o = true then .ok false else x >>= fun _ => (.err : Res Bool)) ≠
        .ok true := by
      intro o x h
      cases o with
      | true => cases h
      | false =>
        simp only [Bool.false_eq_true, if_false, Res.bind_eq_ok] at h
        obtain ⟨p, _, h⟩ := h
        cases h
    exact key _ _ h1

/-- C115, negation: a declaration made on the fly that has parameters matches no arguments at all, with or without
the options. -/
theorem C115_negation_match (k : FuncKind) (id : ExtId) (v : Variant)
    (h : newFuncVariant k id = .ok v ∨ ∃ o, newFuncVariantOpts k id o = .ok v) (t : Ty) (ts ts' : List Ty) :
    matchArguments v.impl.nullability v.impl.args v.impl.variadic (t :: ts) ≠ .ok (true, ts') := by
  have hn : v.impl.nullability = .unset := by
    rcases h with h | ⟨o, h⟩
    · exact (C115_negation_made k id v h).2.1
    · cases k <;> simp only [newFuncVariantOpts, Res.bind_eq_ok] at h
      · obtain ⟨_, _, h⟩ := h; cases h; rfl
      · obtain ⟨_, _, _, _, h⟩ := h; cases h; rfl
      · obtain ⟨_, _, _, _, h⟩ := h; cases h; rfl
  rw [hn]
  intro h
  obtain ⟨args1, defs, _, _, ht, _, _, hm, _⟩ := match_true h
  cases ht
  exact matchEach_unset _ _ _ hm

example : (∃ v, newFuncVariant .scalar ⟨"extension:acme:f", "f:i32"⟩ = .ok v ∧ v.impl.args = [.value (.prim .i32 2 0)]) :=
  ⟨_, made_i32 _, rfl⟩

/-- C115 (partial): a declaration made with options has the attributes asked for, as long as the largest set has
fewer than 2^63 members. -/
theorem C115_options_partial (k : FuncKind) (id : ExtId) (o : VariantOpts) (v : Variant)
    (hm : o.maxSet.toNat < 2 ^ 63) (h : newFuncVariantOpts k id o = .ok v) : v.Has k o := by
  have hset : o.maxSet.toInt64.toInt = o.maxSet.toNat := by
    rw [← Int64.toInt_toBitVec, UInt64.toBitVec_toInt64, BitVec.toInt_eq_toNat_of_lt, UInt64.toNat_toBitVec]
    rw [UInt64.toNat_toBitVec]
    omega
  have hint : ∀ {t}, o.intermediateType = .ok t → o.decomposable ≠ "" → o.decomposable ≠ "NONE" →
      ∃ t', parseType o.intermediate = .ok t' ∧ t = some t' := by
    intro t ht h1 h2
    simp only [VariantOpts.intermediateType, h1, h2, or_self, if_false] at ht
    split at ht
    · cases ht
    · split at ht
      · rename_i t' e
        cases ht
        exact ⟨t', e, rfl⟩
      · cases ht
  cases k <;> simp only [newFuncVariantOpts, Res.bind_eq_ok] at h
  · obtain ⟨_, _, h⟩ := h
    cases h
    exact ⟨rfl, rfl, rfl, by simp, by simp, by simp, by simp, by simp⟩
  · obtain ⟨t, ht, r, _, h⟩ := h
    cases h
    exact ⟨rfl, rfl, rfl, fun _ => rfl, fun _ => hset, fun _ => rfl, fun _ h1 h2 => hint ht h1 h2, by simp⟩
  · obtain ⟨t, ht, r, _, h⟩ := h
    cases h
    exact ⟨rfl, rfl, rfl, fun _ => rfl, fun _ => hset, fun _ => rfl, fun _ h1 h2 => hint ht h1 h2, fun _ => rfl⟩

/-- the options of a decomposable aggregate function -/
def someOpts (n : UInt64) : VariantOpts := ⟨some ⟨1, 0, true⟩, true, true, true, n, "MANY", "i64", ""⟩

theorem made_someOpts (n : UInt64) : newFuncVariantOpts .aggregate ⟨"extension:acme:f", "f:i32"⟩ (someOpts n) =
    .ok ⟨"f", "", "extension:acme:f", ⟨[.value (.prim .i32 2 0)], none, some (.prim .i64 2 0), "MANY", "", .unset,
      some ⟨1, 0, true⟩, ⟨0, true, true, true, n.toInt64⟩⟩⟩ := by
  have h1 : parseFuncName "f:i32" = .ok ("f", [.value (.prim .i32 2 0)]) := by rfl
  have h2 : parseType "i64" = .ok (.prim .i64 2 0) := by rfl
  simp [newFuncVariantOpts, VariantOpts.intermediateType, someOpts, h1, h2, FuncKind.fill]

example : (10 : UInt64).toNat < 2 ^ 63 ∧ ∃ v, newFuncVariantOpts .aggregate ⟨"extension:acme:f", "f:i32"⟩ (someOpts 10) = .ok v :=
  ⟨by decide, _, made_someOpts _⟩

/-- C115: the options are accepted exactly when the name can be read and there is an intermediate type for
aggregations that can be decomposed; everything else panics. -/
theorem C115_options_accepted (k : FuncKind) (id : ExtId) (o : VariantOpts) :
    ((∃ v, newFuncVariantOpts k id o = .ok v) ↔ (∃ v, newFuncVariant k id = .ok v) ∧
      (k = .scalar ∨ o.decomposable = "" ∨ o.decomposable = "NONE" ∨
        (o.intermediate ≠ "" ∧ ∃ t, parseType o.intermediate = .ok t))) ∧
    newFuncVariantOpts k id o ≠ .err := by
  have hname : ∀ k, (∃ v, newFuncVariant k id = .ok v) ↔ ∃ r, parseFuncName id.name = .ok r := by
    intro k
    simp only [newFuncVariant, Res.bind_eq_ok]
    constructor
    · rintro ⟨_, r, hr, _⟩; exact ⟨r, hr⟩
    · rintro ⟨r, hr⟩; exact ⟨_, r, hr, rfl⟩
  have hne : parseFuncName id.name ≠ .err := by
    simp only [parseFuncName]
    split
    · simp
    · intro h
      have : Res.mapL paramOfText (splitChar '_' (cutColon id.name.toList).2) ≠ .err := by
        generalize splitChar '_' (cutColon id.name.toList).2 = l
        induction l with
        | nil => simp [Res.mapL]
        | cons a l ih =>
          simp only [Res.mapL]
          cases h1 : paramOfText a with
          | err => exact absurd h1 (paramOfText_ne_err a)
          | panic => simp
          | ok t =>
            cases h2 : Res.mapL paramOfText l with
            | err => exact absurd h2 ih
            | panic => simp
            | ok ts => simp
      cases h1 : Res.mapL paramOfText (splitChar '_' (cutColon id.name.toList).2) with
      | err => exact this h1
      | panic => rw [h1] at h; cases h
      | ok ts => rw [h1] at h; cases h
  have hint : ((∃ t, o.intermediateType = .ok t) ↔ o.decomposable = "" ∨ o.decomposable = "NONE" ∨
        (o.intermediate ≠ "" ∧ ∃ t, parseType o.intermediate = .ok t)) ∧ o.intermediateType ≠ .err := by
    simp only [VariantOpts.intermediateType]
    by_cases h1 : o.decomposable = ""
    · simp [h1]
    by_cases h2 : o.decomposable = "NONE"
    · simp [h2]
    by_cases h3 : o.intermediate = ""
    · simp [h1, h2, h3]
    cases h4 : parseType o.intermediate <;> simp [h1, h2, h3]
  rw [hname]
  cases hr : parseFuncName id.name with
  | err => exact absurd hr hne
  | panic =>
    refine ⟨⟨?_, by simp⟩, ?_⟩
    · rintro ⟨v, hv⟩
      cases k <;> simp only [newFuncVariantOpts, hr, Res.panic_bind, Res.bind_eq_ok] at hv
      · cases hv
      · obtain ⟨_, _, hv⟩ := hv; cases hv
      · obtain ⟨_, _, hv⟩ := hv; cases hv
    · cases k <;> simp only [newFuncVariantOpts, hr, Res.panic_bind]
      · simp
      all_goals
        cases ht : o.intermediateType with
        | err => exact absurd ht hint.2
        | panic => simp
        | ok t => simp
  | ok r =>
    cases k
    · simp [newFuncVariantOpts, hr]
    all_goals
      rw [← hint.1]
      cases ht : o.intermediateType with
      | err => exact absurd ht hint.2
      | panic => simp [newFuncVariantOpts, ht]
      | ok t => simp [newFuncVariantOpts, ht, hr]

/-- C115, negation: the size of the largest set is wrong from 2^63 on. -/
theorem C115_negation_options : ∃ v, newFuncVariantOpts .aggregate ⟨"extension:acme:f", "f:i32"⟩
    (someOpts 18446744073709551615) = .ok v ∧ v.impl.attrs.maxSet = -1 ∧ ¬ v.Has .aggregate (someOpts 18446744073709551615) := by
  refine ⟨_, made_someOpts _, by decide +kernel, fun h => ?_⟩
  have := h.maxSet (by simp)
  revert this
  decide +kernel

theorem C115_negation : ¬ C115_statement := by
  intro h
  exact (C115_negation_made .scalar _ _ (made_i32 _)).2.2 (h.2.2.1 .scalar _ _ (made_i32 _))

end Verif

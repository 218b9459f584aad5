import Verif.Lemmas.Collection
/-!
# Properties of collections of extension files (C25, C26, C55, C67, C68)
-/

namespace Verif

/-! ## C55 -/

/-- C55: a URN is accepted exactly when it is `extension:<owner>:<name>` with non-empty, colon-free
owner and name. -/
theorem C55_urn_exact (s : String) : validateUrn s = true ↔ IsUrn s := validateUrn_iff s

example : IsUrn "extension:io.substrait:functions_arithmetic" :=
  ⟨"io.substrait".toList, "functions_arithmetic".toList, by decide +kernel, by decide, by decide,
    by decide +kernel, by decide +kernel⟩

example : validateUrn "extension:io.substrait:functions_arithmetic" = true := by decide +kernel
example : validateUrn "extension:io.substrait:functions:arithmetic" = false := by decide +kernel
example : validateUrn "extension::x" = false := by decide +kernel
example : validateUrn "https://example.com/x.yaml" = false := by decide +kernel

/-! ## C68 -/

/-- C68 (well-formed parameters): `Load` accepts a file exactly when its URN is well-formed and new,
every dependency has an identifier as alias and is loaded, and every user defined type mentioned at any
depth of a signature is declared in the file; otherwise it reports an error. Not covered: a file with a
parameter that is neither a value, a type nor an enumeration, on which `Load` panics
(`C68_negation_panic`). -/
theorem C68_accepts_partial (c : Collection) (f : ExtFile) (hm : f.NoMissing) (hd : f.DefaultsOk) :
    ((c.load (some f)).2 = .ok () ↔
      IsUrn f.urn ∧ c.urnLoaded f.urn = false ∧
      (∀ p ∈ f.dependencies, IsIdentifier p.1 ∧ c.urnLoaded p.2 = true) ∧
      ∀ p ∈ f.declared, ∀ i ∈ p.2.impls, ∀ n, i.Mentions n → ∃ t ∈ f.types, t.name = n) ∧
    (c.load (some f)).2 ≠ .panic := by
  by_cases hv : f.Valid c
  · obtain ⟨s, e, _⟩ := addSteps_ok f.urn f.steps ⟨c.loadTypes f, .empty⟩ (steps_ok hm hd)
    have hl : (c.load (some f)).2 = .ok () := by rw [load_valid hv, e]
    rw [hl]
    obtain ⟨h1, h2, h3, _, h5⟩ := hv
    exact ⟨⟨fun _ => ⟨h1, h2, h3, h5⟩, fun _ => rfl⟩, by simp⟩
  · have hv' : ¬ (IsUrn f.urn ∧ c.urnLoaded f.urn = false ∧
        (∀ p ∈ f.dependencies, IsIdentifier p.1 ∧ c.urnLoaded p.2 = true) ∧
        ∀ p ∈ f.declared, ∀ i ∈ p.2.impls, ∀ n, i.Mentions n → ∃ t ∈ f.types, t.name = n) := by
      rintro ⟨h1, h2, h3, h4⟩
      exact hv ⟨h1, h2, h3, hm, h4⟩
    have hl : (c.load (some f)).2 = .err := by
      simp only [Collection.load]
      split
      · rfl
      split
      · rfl
      rename_i hu
      split
      · rfl
      rename_i hl
      split
      · rfl
      rename_i hdep
      cases hr : f.validateTypeRefs with
      | err => rfl
      | ok _ =>
        exact absurd ⟨(validateUrn_iff _).1 (by simpa using hu), by simpa using hl,
          (dependenciesOk_iff c f).1 (by simpa using hdep), (validateTypeRefs_ok f).1 hr⟩ hv
      | panic =>
        exfalso
        have htot : ∀ i ∈ (f.scalars ++ f.aggregates ++ f.windows).flatMap FuncDecl.impls,
            ∃ ts, i.types = .ok ts := by
          intro i hi
          obtain ⟨p, hp, hip⟩ := (mem_allImpls f i).1 hi
          obtain ⟨us, hus⟩ := mapL_total (f := FuncParam.typeExpression) (l := i.args) (fun a ha =>
            (typeExpression_ok a).2 (by rintro rfl; exact hm p hp i hip ha))
          exact ⟨us ++ i.ret.toList ++ i.intermediate.toList, by simp [Impl.types, hus]⟩
        obtain ⟨tss, h⟩ := mapL_total htot
        simp only [ExtFile.validateTypeRefs, ExtFile.functionTypes, h, Res.ok_bind] at hr
        split at hr <;> cases hr
    rw [hl]
    exact ⟨⟨by simp, fun h => absurd h hv'⟩, by simp⟩

/-- a file with a scalar, an aggregate and a window function; the scalar function takes a user defined
type declared in the file -/
def sampleFile : ExtFile where
  urn := "extension:acme:geo"
  dependencies := []
  metadata := some 7
  types := [⟨"point", 1⟩]
  variations := [⟨"compact", 2⟩]
  scalars := [⟨"norm", "", [⟨[.value (.list 1 (.udt 1 0 "point" []))], some (.prim .fp64 1 0), none, "", "", .mirror, none, { options := 3 }⟩],
    false, false⟩]
  aggregates := [⟨"total", "", [⟨[.value (.prim .i32 1 0)], some (.prim .i64 1 0), some (.prim .i64 1 0), "",
      "", .mirror, none, { options := 4 }⟩, ⟨[.value (.prim .i64 1 0)], some (.prim .i64 1 0), some (.prim .i64 1 0), "", "", .mirror, none, { options := 5 }⟩],
    false, false⟩]
  windows := [⟨"rank", "", [⟨[], some (.prim .i64 1 0), none, "", "", .mirror, none, { options := 6 }⟩], false, false⟩]

example : sampleFile.NoMissing ∧ sampleFile.DefaultsOk ∧ sampleFile.PlainNames := by
  refine ⟨?_, ?_, ?_⟩
  · intro p hp i hi
    simp only [sampleFile, ExtFile.declared, List.map_cons, List.map_nil, List.cons_append, List.nil_append,
      List.mem_cons, List.not_mem_nil, or_false] at hp
    rcases hp with rfl | rfl | rfl <;> simp only [List.mem_cons, List.not_mem_nil, or_false] at hi
    · subst hi; simp
    · rcases hi with rfl | rfl <;> simp
    · subst hi; simp
  · intro p hp
    simp only [sampleFile, ExtFile.declared, List.map_cons, List.map_nil, List.cons_append, List.nil_append,
      List.mem_cons, List.not_mem_nil, or_false] at hp
    rcases hp with rfl | rfl | rfl <;> simp
  · intro p hp
    simp only [sampleFile, ExtFile.declared, List.map_cons, List.map_nil, List.cons_append, List.nil_append,
      List.mem_cons, List.not_mem_nil, or_false] at hp
    rcases hp with rfl | rfl | rfl <;> simp only <;> decide +kernel

example : (Collection.zero.load (some sampleFile)).2 = .ok () := rfl

/-- without the declaration of the type the file is rejected -/
example : (Collection.zero.load (some { sampleFile with types := [] })).2 = .err := rfl

/-- C68, as stated: `Load` never panics. -/
def C68_statement : Prop := ∀ (c : Collection) (f : ExtFile), c.Reachable → (c.load (some f)).2 ≠ .panic

/-- C68 as stated is false: a parameter with none of the keys `options`, `value` and `type` makes `Load`
panic. -/
theorem C68_negation_panic : ¬ C68_statement := by
  intro h
  exact h .zero { sampleFile with scalars := [⟨"f", "", [⟨[.missing], none, none, "", "", .mirror, none, {}⟩], false, false⟩] }
    .zero rfl

/-! ## C25 -/

theorem sameAnswers_of {c c' : Collection} {urn : String}
    (h1 : ∀ k (id : ExtId), id.urn = urn → (c'.funcs k).get id = (c.funcs k).get id)
    (h2 : ∀ id : ExtId, id.urn = urn → c'.simpleNames.get id = c.simpleNames.get id)
    (h3 : ∀ id : ExtId, id.urn = urn → c'.types.get id = c.types.get id)
    (h4 : ∀ id : ExtId, id.urn = urn → c'.variations.get id = c.variations.get id)
    (h5 : c'.metadata.get urn = c.metadata.get urn) (h6 : c'.urnSet.get urn = c.urnSet.get urn) :
    SameAnswers c c' urn := by
  refine ⟨fun k name => ?_, fun name => h3 _ rfl, fun name => h4 _ rfl, h5, ?_⟩
  · simp only [Collection.getFunc, checkMaps, h1 k ⟨urn, _⟩ rfl, h2 ⟨urn, _⟩ rfl]
  · simp only [Collection.urnLoaded, h6]

/-- C25, first half: a load that does not succeed — a bad URN, a URN loaded before, a missing
dependency, a bad alias, an undeclared type, a malformed parameter, unreadable text — leaves every
lookup about every URN as it was. (`DefaultsOk`: the external `defaults.Set` does not fail on the
declarations.) -/
theorem C25_rejected (c c' : Collection) (file : Option ExtFile) (r : Res Unit)
    (hd : ∀ f, file = some f → f.DefaultsOk) (h : c.load file = (c', r)) (hr : r ≠ .ok ()) (urn : String) :
    SameAnswers c c' urn := by
  have hc : c' = c := by
    cases file with
    | none => cases h; rfl
    | some f =>
      by_cases hv : f.Valid c
      · obtain ⟨s, e, _⟩ := addSteps_ok f.urn f.steps ⟨c.loadTypes f, .empty⟩
          (steps_ok hv.2.2.2.1 (hd f rfl))
        rw [load_valid hv, e] at h
        cases h
        exact absurd rfl hr
      · rcases load_invalid hv with e | e <;> rw [e] at h <;> cases h <;> rfl
  subst hc
  exact ⟨fun _ _ => rfl, fun _ => rfl, fun _ => rfl, rfl, rfl⟩

/-- a file that depends on a URN that is not loaded is rejected -/
example : ((Collection.zero.load (some sampleFile)).1.load
    (some { sampleFile with urn := "extension:acme:b", dependencies := [("d", "extension:acme:c")] })).2 = .err :=
  rfl

/-- C25, second half: a successful load leaves every lookup about another URN as it was. -/
theorem C25_others (c c' : Collection) (f : ExtFile) (h : c.load (some f) = (c', .ok ())) (urn : String)
    (hu : urn ≠ f.urn) : SameAnswers c c' urn := by
  obtain ⟨h1, h2, h3, h4, h5, h6, _⟩ := load_other c f
  rw [h] at h1 h2 h3 h4 h5 h6
  exact sameAnswers_of (fun k id hid => h1 k id (hid ▸ hu)) (fun id hid => h4 id (hid ▸ hu))
    (fun id hid => h2 id (hid ▸ hu)) (fun id hid => h3 id (hid ▸ hu)) (h5 urn hu) (h6 urn hu)

theorem urnLoaded_mono (c : Collection) (file : Option ExtFile) (urn : String) (h : c.urnLoaded urn = true) :
    (c.load file).1.urnLoaded urn = true := by
  cases file with
  | none => exact h
  | some f =>
    obtain ⟨_, _, _, _, _, h6, h7⟩ := load_other c f
    by_cases e : urn = f.urn
    · subst e
      rcases h7 with h7 | h7
      · rw [h7]; exact h
      · exact h7
    · rw [Collection.urnLoaded, h6 urn e]; exact h

/-- C25, third part: once a URN is loaded, loading a file with that URN is rejected with an error,
whatever was loaded in between. -/
theorem C25_again (c c' : Collection) (f : ExtFile) (h : c.load (some f) = (c', .ok ()))
    (between : List (Option ExtFile)) (g : ExtFile) (hg : g.urn = f.urn) :
    ((between.foldl (fun c file => (c.load file).1) c').load (some g)).2 = .err := by
  have hl : c'.urnLoaded f.urn = true := by
    obtain ⟨_, h1, _⟩ := load_ok h
    rw [Collection.urnLoaded, h1, GoMap.get_set, if_pos rfl]; rfl
  have : ∀ (l : List (Option ExtFile)) (c : Collection), c.urnLoaded f.urn = true →
      (l.foldl (fun c file => (c.load file).1) c).urnLoaded f.urn = true := by
    intro l
    induction l with
    | nil => intro c h; exact h
    | cons x l ih => intro c h; exact ih _ (urnLoaded_mono c x _ h)
  have := this between c' hl
  generalize between.foldl (fun c file => (c.load file).1) c' = c2 at this ⊢
  rw [Collection.load]
  split
  · rfl
  split
  · rfl
  rw [if_pos (by rw [hg]; exact this)]

example : ((Collection.zero.load (some sampleFile)).1.load (some sampleFile)).2 = .err := rfl

/-! ## C67 -/

theorem presents_of_step {f : ExtFile} {k : FuncKind} {d : FuncDecl} {v : Variant}
    (hd : (k, d) ∈ f.steps) (hv : v ∈ d.variants k f.urn) :
    ∃ p ∈ f.declared, p.1.ServesAs k ∧ p.2.name = d.name ∧ ∃ i ∈ p.2.impls, v.Presents f.urn p.2.name i := by
  simp only [FuncDecl.variants, List.mem_map] at hv
  obtain ⟨i, hi, rfl⟩ := hv
  simp only [ExtFile.steps, List.mem_append, List.mem_map] at hd
  rcases hd with hd | ⟨d', hd', e⟩
  · refine ⟨_, hd, .inl rfl, rfl, i, hi, rfl, rfl, fill_args k i, ?_, ?_, ?_, ?_, ?_⟩ <;> cases k <;> rfl
  · cases e
    simp only [FuncDecl.asWindow, List.mem_map] at hi
    obtain ⟨j, hj, rfl⟩ := hi
    exact ⟨(.aggregate, d'), by simp [ExtFile.declared, hd'], .inr ⟨rfl, rfl⟩, rfl, j, hj,
      ⟨rfl, rfl, rfl, rfl, rfl, rfl, rfl, rfl⟩⟩

/-- C67: after a successful load every declared implementation is answered for under its compound name
`name:signature` — as a function of its kind, aggregate functions also as window functions — and the
answer presents an implementation declared in the file with that compound name. -/
theorem C67_found (c c' : Collection) (f : ExtFile) (hc : c.Reachable) (h : c.load (some f) = (c', .ok ()))
    (p : FuncKind × FuncDecl) (hp : p ∈ f.declared) (i : Impl) (hi : i ∈ p.2.impls) (k : FuncKind)
    (hk : p.1.ServesAs k) (sig : String) (hs : signatureKey i.args = .ok sig) :
    ∃ v, c'.getFunc k ⟨f.urn, p.2.name ++ ":" ++ sig⟩ = some v ∧ f.Declares k v ∧
      v.compoundName = .ok (p.2.name ++ ":" ++ sig) := by
  obtain ⟨hv, _, _, _, _, _, h7, h8, _⟩ := load_ok h
  have hsome : ((c'.funcs k).get ⟨f.urn, p.2.name ++ ":" ++ sig⟩).isSome := by
    rcases hk with rfl | ⟨hk, rfl⟩
    · refine h8 p.1 p.2 (List.mem_append_left _ hp) ⟨p.2.name, p.2.description, f.urn, p.1.fill i⟩
        (List.mem_map.2 ⟨i, hi, rfl⟩) _ ?_
      rw [compoundName_mk, hs]; rfl
    · obtain ⟨k', d⟩ := p
      simp only at hk
      subst hk
      have hd : d ∈ f.aggregates := by simpa [ExtFile.declared] using hp
      refine h8 .window d.asWindow (List.mem_append_right _ (List.mem_map.2 ⟨d, hd, rfl⟩))
        ⟨d.name, d.description, f.urn, FuncKind.window.fill { i with windowType := "STREAMING" }⟩
        (List.mem_map.2 ⟨{ i with windowType := "STREAMING" }, List.mem_map.2 ⟨i, hi, rfl⟩, rfl⟩) _ ?_
      rw [compoundName_mk, hs]; rfl
  obtain ⟨v, hvv⟩ := Option.isSome_iff_exists.1 hsome
  refine ⟨v, by simp only [Collection.getFunc, checkMaps, hvv], ?_⟩
  rcases h7 k _ v hvv with h | ⟨d, hd, hvd, _, hcn⟩
  · rw [(reachable_tidy hc f.urn hv.2.1).1] at h
    cases h
  · obtain ⟨q, hq, hqk, _, j, hj, hpr⟩ := presents_of_step hd hvd
    exact ⟨⟨q, hq, hqk, j, hj, hpr⟩, hcn⟩

example : (Collection.zero.load (some sampleFile)).1.getFunc .window
    ⟨"extension:acme:geo", "total:i32"⟩ ≠ none := by
  have : ((Collection.zero.load (some sampleFile)).1.getFunc .window
    ⟨"extension:acme:geo", "total:i32"⟩).isSome = true := by decide +kernel
  intro h; rw [h] at this; cases this

theorem toggle_mem : ∀ (l : List String) (o : Option String) (x : String), l.foldl toggle o = some x →
    x ∈ l ∨ o = some x := by
  intro l
  induction l with
  | nil => intro o x h; exact .inr h
  | cons a l ih =>
    intro o x h
    rcases ih _ x h with h | h
    · exact .inl (by simp [h])
    · simp only [toggle] at h
      split at h
      · cases h
      · cases h; exact .inl (by simp)

theorem single_prefix {d : FuncDecl} {x : String} (h : d.single = some x) :
    ∃ s, x = d.name ++ ":" ++ s := by
  unfold FuncDecl.single at h
  split at h
  · split at h
    · cases h; exact ⟨_, rfl⟩
    · cases h
  · cases h

theorem mem_singles {n x : String} {l : List (FuncKind × FuncDecl)} (h : x ∈ singles n l) :
    ∃ s, x = n ++ ":" ++ s := by
  simp only [singles, List.mem_filterMap, List.mem_filter, decide_eq_true_eq] at h
  obtain ⟨p, ⟨_, rfl⟩, h⟩ := h
  exact single_prefix h

theorem list_prefix {α : Type} {x : α} : ∀ {a b s t : List α}, a ++ x :: s = b ++ x :: t → x ∉ a → x ∉ b →
    a = b := by
  intro a
  induction a with
  | nil =>
    intro b s t h _ hb
    cases b with
    | nil => rfl
    | cons y b => simp only [List.nil_append, List.cons_append, List.cons.injEq] at h; simp [h.1] at hb
  | cons z a ih =>
    intro b s t h ha hb
    cases b with
    | nil => simp only [List.nil_append, List.cons_append, List.cons.injEq] at h; simp [h.1] at ha
    | cons y b =>
      simp only [List.cons_append, List.cons.injEq] at h
      rw [h.1, ih h.2 (fun h => ha (by simp [h])) (fun h => hb (by simp [h]))]

theorem name_of_compound {a b s t : String} (h : a ++ ":" ++ s = b ++ ":" ++ t)
    (ha : ':' ∉ a.toList) (hb : ':' ∉ b.toList) : a = b := by
  have h' := congrArg String.toList h
  simp only [String.toList_append] at h'
  have he : ":".toList = [':'] := by decide
  rw [he] at h'
  simp only [List.append_assoc, List.cons_append, List.nil_append] at h'
  exact String.toList_inj.1 (list_prefix h' ha hb)

theorem compound_prefix {v : Variant} {n : String} (h : v.compoundName = .ok n) :
    ∃ s, n = v.name ++ ":" ++ s := by
  simp only [Variant.compoundName, Res.bind_eq_ok] at h
  obtain ⟨s, _, h⟩ := h
  cases h
  exact ⟨s, rfl⟩

theorem steps_plain {f : ExtFile} (hn : f.PlainNames) {k : FuncKind} {d : FuncDecl} (h : (k, d) ∈ f.steps) :
    ':' ∉ d.name.toList := by
  simp only [ExtFile.steps, List.mem_append, List.mem_map] at h
  rcases h with h | ⟨d', hd', e⟩
  · exact hn _ h
  · cases e
    exact hn (.aggregate, d') (by simp [ExtFile.declared, hd'])

/-- C67, the other direction: what a collection answers about the URN of a loaded file presents
something declared in that file, under its compound name or (colons occurring in no function name)
under its name. -/
theorem C67_only (c c' : Collection) (f : ExtFile) (hc : c.Reachable) (hn : f.PlainNames)
    (h : c.load (some f) = (c', .ok ())) (k : FuncKind) (n : String) (v : Variant)
    (hv : c'.getFunc k ⟨f.urn, n⟩ = some v) :
    f.Declares k v ∧ (v.compoundName = .ok n ∨ (v.name = n ∧ ':' ∉ n.toList)) := by
  obtain ⟨hval, _, _, _, _, _, h7, _, h9⟩ := load_ok h
  have ht := reachable_tidy hc f.urn hval.2.1
  have key : ∀ m w, (c'.funcs k).get ⟨f.urn, m⟩ = some w →
      f.Declares k w ∧ w.compoundName = .ok m ∧ ':' ∉ w.name.toList := by
    intro m w hw
    rcases h7 k _ w hw with h | ⟨d, hd, hvd, _, hcn⟩
    · rw [ht.1] at h; cases h
    · obtain ⟨q, hq, hqk, hqn, j, hj, hpr⟩ := presents_of_step hd hvd
      refine ⟨⟨q, hq, hqk, j, hj, hpr⟩, hcn, ?_⟩
      rw [hpr.2.1]
      exact hn q hq
  simp only [Collection.getFunc, checkMaps] at hv
  cases hg : (c'.funcs k).get ⟨f.urn, n⟩ with
  | some w =>
    rw [hg] at hv
    cases hv
    obtain ⟨a, b, _⟩ := key _ _ hg
    exact ⟨a, .inl b⟩
  | none =>
    rw [hg] at hv
    simp only [h9 ⟨f.urn, n⟩, if_true, ht.2.1, Option.or_none] at hv
    cases hx : (singles n f.steps).foldl toggle none with
    | none => rw [hx] at hv; cases hv
    | some x =>
      rw [hx] at hv
      obtain ⟨a, b, hvn⟩ := key _ _ hv
      refine ⟨a, .inr ?_⟩
      have hmem : x ∈ singles n f.steps := by
        rcases toggle_mem _ _ _ hx with h | h
        · exact h
        · cases h
      obtain ⟨s, rfl⟩ := mem_singles hmem
      obtain ⟨t, ht'⟩ := compound_prefix b
      have hnn : ':' ∉ n.toList := by
        simp only [singles, List.mem_filterMap, List.mem_filter, decide_eq_true_eq] at hmem
        obtain ⟨⟨k', d⟩, ⟨hd, rfl⟩, _⟩ := hmem
        exact steps_plain hn hd
      exact ⟨(name_of_compound ht' hnn hvn).symm, hnn⟩

/-- C67 for types, type variations and metadata: after a successful load the collection answers with the
last declaration of the name in the file, and nothing for names that are not declared. -/
theorem C67_types (c c' : Collection) (f : ExtFile) (hc : c.Reachable)
    (h : c.load (some f) = (c', .ok ())) (n : String) :
    c'.getType ⟨f.urn, n⟩ = (f.types.reverse.find? fun t => t.name = n) ∧
    c'.getTypeVariation ⟨f.urn, n⟩ = (f.variations.reverse.find? fun t => t.name = n) ∧
    c'.getFileMetadata f.urn = f.metadata ∧ c'.urnLoaded f.urn = true := by
  obtain ⟨hval, h2, h3, h4, h5, _⟩ := load_ok h
  obtain ⟨_, _, t3, t4, t5⟩ := reachable_tidy hc f.urn hval.2.1
  refine ⟨?_, ?_, ?_, ?_⟩
  · rw [Collection.getType, h3]
    show (f.types.foldl (fun m t => m.set ⟨f.urn, t.name⟩ t) c.types).get _ = _
    rw [foldl_setNames f.urn TypeDecl.name, if_pos rfl, t3, Option.or_none]
  · rw [Collection.getTypeVariation, h4]
    show (f.variations.foldl (fun m t => m.set ⟨f.urn, t.name⟩ t) c.variations).get _ = _
    rw [foldl_setNames f.urn VariationDecl.name, if_pos rfl, t4, Option.or_none]
  · rw [Collection.getFileMetadata, h5]
    show (match f.metadata with
        | some x => c.metadata.set f.urn x
        | none => c.metadata).get f.urn = _
    cases f.metadata with
    | some x => simp only [GoMap.get_set, if_true]
    | none => exact t5
  · rw [Collection.urnLoaded, h2, GoMap.get_set, if_pos rfl]; rfl

example : Collection.Reachable .zero := .zero
example : (Collection.zero.load (some sampleFile)).1.getType ⟨"extension:acme:geo", "point"⟩ =
    some ⟨"point", 1⟩ := rfl

/-! ## C26 -/

/-- C26, as stated: a name with exactly one implementation in the file is found without its signature,
a name with several is not found. -/
def C26_statement : Prop :=
  ∀ (c c' : Collection) (f : ExtFile), c.Reachable → f.PlainNames → c.load (some f) = (c', .ok ()) →
    ∀ name : String,
      (∀ k i, f.implsNamed name = [(k, i)] →
        ∃ v, c'.getFunc k ⟨f.urn, name⟩ = some v ∧ v.Presents f.urn name i) ∧
      (2 ≤ (f.implsNamed name).length → ∀ k, c'.getFunc k ⟨f.urn, name⟩ = none)

/-- a file with only the given functions -/
def fileOf (scalars aggregates windows : List FuncDecl) : ExtFile :=
  ⟨"extension:acme:f", [], none, [], [], scalars, aggregates, windows⟩

/-- a function with the given one-parameter implementations -/
def declOf (name : String) (ts : List Prim) : FuncDecl :=
  ⟨name, "", ts.map fun t => ⟨[.value (.prim t 1 0)], some (.prim t 1 0), none, "", "", .mirror, none, {}⟩, false, false⟩

theorem plain_fileOf {s a w : List FuncDecl} (h : ∀ d ∈ s ++ a ++ w, d.name = "f") :
    (fileOf s a w).PlainNames := by
  intro p hp
  have : p.2.name = "f" := by
    simp only [fileOf, ExtFile.declared, List.mem_append, List.mem_map] at hp
    rcases hp with (⟨d, hd, rfl⟩ | ⟨d, hd, rfl⟩) | ⟨d, hd, rfl⟩ <;> exact h d (by simp [hd])
  rw [this]
  decide +kernel

/-- C26 as stated is false: an aggregate function with one implementation is not found by its name,
because adding it a second time, as a window function, removes the short name again. -/
theorem C26_negation_aggregate : ¬ C26_statement := by
  intro h
  have hok : Collection.zero.load (some (fileOf [] [declOf "f" [.i32]] [])) =
      ((Collection.zero.load (some (fileOf [] [declOf "f" [.i32]] []))).1, .ok ()) := rfl
  obtain ⟨v, hv, _⟩ := (h _ _ _ .zero (plain_fileOf (by simp [declOf])) hok "f").1 .aggregate _ rfl
  have : ((Collection.zero.load (some (fileOf [] [declOf "f" [.i32]] []))).1.getFunc .aggregate
    ⟨"extension:acme:f", "f"⟩).isSome = false := by decide +kernel
  rw [show (⟨"extension:acme:f", "f"⟩ : ExtId) = ⟨(fileOf [] [declOf "f" [.i32]] []).urn, "f"⟩ from rfl, hv]
    at this
  cases this

/-- C26 as stated is false: a name declared three times with one implementation each is found (the third
declaration puts the short name back). -/
theorem C26_negation_thrice : ¬ C26_statement := by
  intro h
  have hok : Collection.zero.load
      (some (fileOf [declOf "f" [.i32], declOf "f" [.i64], declOf "f" [.fp32]] [] [])) =
      ((Collection.zero.load
        (some (fileOf [declOf "f" [.i32], declOf "f" [.i64], declOf "f" [.fp32]] [] []))).1, .ok ()) := rfl
  have hn := (h _ _ _ .zero (plain_fileOf (by simp [declOf])) hok "f").2 (by decide +kernel) .scalar
  have : ((Collection.zero.load
      (some (fileOf [declOf "f" [.i32], declOf "f" [.i64], declOf "f" [.fp32]] [] []))).1.getFunc .scalar
    ⟨"extension:acme:f", "f"⟩).isSome = true := by decide +kernel
  rw [show (⟨"extension:acme:f", "f"⟩ : ExtId) =
    ⟨(fileOf [declOf "f" [.i32], declOf "f" [.i64], declOf "f" [.fp32]] [] []).urn, "f"⟩ from rfl, hn] at this
  cases this

/-- C26 as stated is false: a declaration with one implementation is found although another declaration
of the name adds two more. -/
theorem C26_negation_mixed : ¬ C26_statement := by
  intro h
  have hok : Collection.zero.load
      (some (fileOf [declOf "f" [.i32], declOf "f" [.i64, .fp32]] [] [])) =
      ((Collection.zero.load
        (some (fileOf [declOf "f" [.i32], declOf "f" [.i64, .fp32]] [] []))).1, .ok ()) := rfl
  have hn := (h _ _ _ .zero (plain_fileOf (by simp [declOf])) hok "f").2 (by decide +kernel) .scalar
  have : ((Collection.zero.load
      (some (fileOf [declOf "f" [.i32], declOf "f" [.i64, .fp32]] [] []))).1.getFunc .scalar
    ⟨"extension:acme:f", "f"⟩).isSome = true := by decide +kernel
  rw [show (⟨"extension:acme:f", "f"⟩ : ExtId) =
    ⟨(fileOf [declOf "f" [.i32], declOf "f" [.i64, .fp32]] [] []).urn, "f"⟩ from rfl, hn] at this
  cases this

/-- a lookup by a colon-free name goes through the map of short names -/
theorem getFunc_short {c c' : Collection} {f : ExtFile} (hc : c.Reachable)
    (h : c.load (some f) = (c', .ok ())) (k : FuncKind) (n : String) (hn : ':' ∉ n.toList) :
    c'.getFunc k ⟨f.urn, n⟩ =
      ((singles n f.steps).foldl toggle none).bind fun x => (c'.funcs k).get ⟨f.urn, x⟩ := by
  obtain ⟨hval, _, _, _, _, _, h7, _, h9⟩ := load_ok h
  have ht := reachable_tidy hc f.urn hval.2.1
  have hnone : (c'.funcs k).get ⟨f.urn, n⟩ = none := by
    cases hg : (c'.funcs k).get ⟨f.urn, n⟩ with
    | none => rfl
    | some w =>
      rcases h7 k _ w hg with h | ⟨d, _, _, _, hcn⟩
      · rw [ht.1] at h; cases h
      · obtain ⟨s, hs⟩ := compound_prefix hcn
        refine absurd ?_ hn
        simp only at hs
        rw [hs, String.toList_append, String.toList_append]
        have he : ":".toList = [':'] := by decide
        rw [he]
        simp
  simp only [Collection.getFunc, checkMaps, hnone, h9 ⟨f.urn, n⟩, if_true, ht.2.1, Option.or_none]
  cases (singles n f.steps).foldl toggle none <;> rfl

theorem single_of_impls {d : FuncDecl} {i : Impl} {s : String} (h : d.impls = [i])
    (hs : signatureKey i.args = .ok s) : d.single = some (d.name ++ ":" ++ s) := by
  unfold FuncDecl.single
  rw [h]
  simp only [hs]

theorem single_nil {d : FuncDecl} (h : d.impls = []) : d.single = none := by
  unfold FuncDecl.single
  rw [h]

theorem flatMap_singleton {α β : Type} {g : α → List β} : ∀ {l : List α} {b : β}, l.flatMap g = [b] →
    ∃ l1 a l2, l = l1 ++ a :: l2 ∧ g a = [b] ∧ (∀ x ∈ l1, g x = []) ∧ ∀ x ∈ l2, g x = [] := by
  intro l
  induction l with
  | nil => intro b h; simp at h
  | cons a l ih =>
    intro b h
    rw [List.flatMap_cons] at h
    rcases List.append_eq_singleton_iff.1 h with ⟨h1, h2⟩ | ⟨h1, h2⟩
    · obtain ⟨l1, a', l2, rfl, ha, hl1, hl2⟩ := ih h2
      exact ⟨a :: l1, a', l2, rfl, ha, by
        intro x hx
        rcases List.mem_cons.1 hx with rfl | hx
        · exact h1
        · exact hl1 x hx, hl2⟩
    · exact ⟨[], a, l, rfl, h1, by simp, fun x hx => List.flatMap_eq_nil_iff.1 h2 x hx⟩

/-- C26, for scalar and window functions: if the file has exactly one implementation of the name and it is
a scalar or window function, looking up the name finds it. Missing: aggregate functions
(`C26_negation_aggregate`). -/
theorem C26_found_partial (c c' : Collection) (f : ExtFile) (hc : c.Reachable) (hn : f.PlainNames)
    (h : c.load (some f) = (c', .ok ())) (name : String) (k : FuncKind) (i : Impl)
    (hk : k ≠ .aggregate) (hi : f.implsNamed name = [(k, i)]) :
    ∃ v, c'.getFunc k ⟨f.urn, name⟩ = some v ∧ v.Presents f.urn name i := by
  obtain ⟨hval, _⟩ := load_ok h
  obtain ⟨l1, p, l2, hl, hp, hl1, hl2⟩ := flatMap_singleton hi
  obtain ⟨kp, d⟩ := p
  have hmem : ∀ q ∈ l1 ++ (kp, d) :: l2, q ∈ f.declared ∧ q.2.name = name := by
    intro q hq
    rw [← hl] at hq
    simpa using hq
  obtain ⟨hpd, hpn⟩ := hmem (kp, d) (by simp)
  simp only at hpn
  have hdi : kp = k ∧ d.impls = [i] := by
    cases hdi : d.impls with
    | nil => simp [hdi] at hp
    | cons j js => cases js <;> simp_all
  obtain ⟨rfl, hdi⟩ := hdi
  obtain ⟨sig, hsig⟩ := signatureKey_ok (hval.2.2.2.1 _ hpd i (by simp [hdi]))
  have hzero : ∀ q ∈ f.declared, q.2.name = name → q.1 = .aggregate → q.2.impls = [] := by
    intro q hq hqn hqa
    have : q ∈ l1 ++ (kp, d) :: l2 := by
      rw [← hl]; simpa using ⟨hq, hqn⟩
    rcases List.mem_append.1 this with h | h
    · simpa using hl1 q h
    · rcases List.mem_cons.1 h with rfl | h
      · exact absurd hqa hk
      · simpa using hl2 q h
  have hsingle : singles name f.steps = [d.name ++ ":" ++ sig] := by
    have hnone : ∀ q : FuncKind × FuncDecl, (q.2.impls.map (q.1, ·) : List (FuncKind × Impl)) = [] →
        q.2.single = none := by
      intro q hq; exact single_nil (by simpa using hq)
    have hdecl : singles name f.declared = [d.name ++ ":" ++ sig] := by
      rw [singles, hl, List.filterMap_append, List.filterMap_cons, single_of_impls hdi hsig,
        List.filterMap_eq_nil_iff.2 fun q hq => hnone q (hl1 q hq),
        List.filterMap_eq_nil_iff.2 fun q hq => hnone q (hl2 q hq)]
      rfl
    have hwin : singles name (f.aggregates.map fun d => (FuncKind.window, d.asWindow)) = [] := by
      rw [singles, List.filterMap_eq_nil_iff]
      intro q hq
      simp only [List.mem_filter, List.mem_map, decide_eq_true_eq] at hq
      obtain ⟨⟨d', hd', rfl⟩, hqn⟩ := hq
      refine single_nil ?_
      have := hzero (.aggregate, d') (by simp [ExtFile.declared, hd']) hqn rfl
      simp only at this
      simp [FuncDecl.asWindow, this]
    rw [ExtFile.steps, show ∀ a b, singles name (a ++ b) = singles name a ++ singles name b from
      fun a b => by simp [singles], hdecl, hwin]
    rfl
  have hcol : ':' ∉ name.toList := hpn ▸ hn _ hpd
  obtain ⟨v, hv, _, hcn⟩ := C67_found c c' f hc h (kp, d) hpd i (by simp [hdi]) kp (.inl rfl) sig hsig
  have hget : c'.getFunc kp ⟨f.urn, name⟩ = (c'.funcs kp).get ⟨f.urn, d.name ++ ":" ++ sig⟩ := by
    rw [getFunc_short hc h kp name hcol, hsingle]
    rfl
  have hsome : ∃ w, (c'.funcs kp).get ⟨f.urn, d.name ++ ":" ++ sig⟩ = some w := by
    obtain ⟨_, _, _, _, _, _, _, h8, _⟩ := load_ok h
    refine Option.isSome_iff_exists.1 (h8 kp d (List.mem_append_left _ hpd)
      ⟨d.name, d.description, f.urn, kp.fill i⟩ (List.mem_map.2 ⟨i, by simp [hdi], rfl⟩) _ ?_)
    rw [compoundName_mk, hsig]; rfl
  obtain ⟨w, hw⟩ := hsome
  refine ⟨w, hget.trans hw, ?_⟩
  obtain ⟨_, _, _, _, _, _, h7, _, _⟩ := load_ok h
  rcases h7 kp _ w hw with hold | ⟨d2, hd2, hwd, _, hwc⟩
  · rw [(reachable_tidy hc f.urn hval.2.1).1] at hold; cases hold
  · obtain ⟨q, hq, hqk, hqn, j, hj, hpr⟩ := presents_of_step hd2 hwd
    have hwn : w.name = d.name := by
      obtain ⟨s, hs⟩ := compound_prefix hwc
      refine (name_of_compound hs (hn _ hpd) ?_).symm
      rw [hpr.2.1]; exact hn q hq
    have hqname : q.2.name = name := by rw [← hpr.2.1, hwn, hpn]
    have hmemi : (q.1, j) ∈ f.implsNamed name := by
      simp only [ExtFile.implsNamed, List.mem_flatMap, List.mem_filter, decide_eq_true_eq, List.mem_map]
      exact ⟨q, ⟨hq, hqname⟩, j, hj, rfl⟩
    rw [hi, List.mem_singleton] at hmemi
    obtain ⟨_, rfl⟩ := Prod.mk.inj hmemi
    rw [← hqname]
    exact hpr

example : sampleFile.implsNamed "rank" = [(.window, ⟨[], some (.prim .i64 1 0), none, "", "", .mirror, none, { options := 6 }⟩)] := by
  simp [ExtFile.implsNamed, ExtFile.declared, sampleFile]

example : ((Collection.zero.load (some sampleFile)).1.getFunc .window
    ⟨"extension:acme:geo", "rank"⟩).isSome = true := by decide +kernel

/-- the declarations of the name with exactly one implementation -/
def ExtFile.soleDecls (f : ExtFile) (name : String) : List (FuncKind × FuncDecl) :=
  f.declared.filter fun p => p.2.name = name ∧ p.2.impls.length = 1

theorem singles_length {name : String} : ∀ {l : List (FuncKind × FuncDecl)},
    (∀ p ∈ l, ∀ i ∈ p.2.impls, FuncParam.missing ∉ i.args) →
    (singles name l).length = (l.filter fun p => p.2.name = name ∧ p.2.impls.length = 1).length := by
  intro l
  induction l with
  | nil => intro _; rfl
  | cons p l ih =>
    intro h
    rw [singles_cons, List.length_append, ih fun q hq => h q (by simp [hq]), List.filter_cons]
    by_cases hp : p.2.name = name
    · simp only [hp, if_true, true_and]
      cases hi : p.2.impls with
      | nil => simp [single_nil hi]
      | cons i is =>
        cases is with
        | nil =>
          obtain ⟨s, hs⟩ := signatureKey_ok (h p (by simp) i (by simp [hi]))
          simp [single_of_impls hi hs, Nat.add_comm]
        | cons j js =>
          have : p.2.single = none := by unfold FuncDecl.single; rw [hi]
          simp [this]
    · simp [hp]

/-- C26, names that are not found: the name is not found as a function of any kind when the number of
scalar and window declarations of the name with exactly one implementation is even — in particular when
every declaration of the name has several implementations, and when there are two declarations with one
each. Missing: an odd number of such declarations next to further implementations (`C26_negation_thrice`,
`C26_negation_mixed`). -/
theorem C26_ambiguous_partial (c c' : Collection) (f : ExtFile) (hc : c.Reachable)
    (h : c.load (some f) = (c', .ok ())) (name : String) (hcol : ':' ∉ name.toList)
    (he : ((f.soleDecls name).filter fun p => p.1 ≠ .aggregate).length % 2 = 0) (k : FuncKind) :
    c'.getFunc k ⟨f.urn, name⟩ = none := by
  obtain ⟨hval, _⟩ := load_ok h
  rw [getFunc_short hc h k name hcol, toggle_even]
  · rfl
  rw [singles_length (steps_missing hval.2.2.2.1), ExtFile.steps, List.filter_append, List.length_append]
  have hagg : ((f.aggregates.map fun d => (FuncKind.window, d.asWindow)).filter fun p =>
      p.2.name = name ∧ p.2.impls.length = 1).length =
      ((f.soleDecls name).filter fun p => p.1 = .aggregate).length := by
    simp only [ExtFile.soleDecls, ExtFile.declared, List.filter_append, List.filter_map, List.length_append,
      List.length_map, List.filter_filter, Function.comp_def]
    simp [FuncDecl.asWindow]
  have hsplit : (f.soleDecls name).length = ((f.soleDecls name).filter fun p => p.1 ≠ .aggregate).length +
      ((f.soleDecls name).filter fun p => p.1 = .aggregate).length := by
    generalize f.soleDecls name = l
    induction l with
    | nil => rfl
    | cons q l ih =>
      by_cases hq : q.1 = .aggregate <;> simp [hq] at ih ⊢ <;> omega
  rw [hagg]
  show ((f.soleDecls name).length + _) % 2 = 0
  omega

example : (((fileOf [declOf "f" [.i32, .i64]] [] [declOf "f" [.i32]]).soleDecls "g").filter
    fun p => p.1 ≠ .aggregate).length % 2 = 0 := by decide +kernel
example : (((fileOf [declOf "f" [.i32], declOf "f" [.i64]] [declOf "f" [.fp32]] []).soleDecls "f").filter
    fun p => p.1 ≠ .aggregate).length % 2 = 0 := by decide +kernel
example : ((fileOf [declOf "f" [.i32], declOf "f" [.i64]] [] []).implsNamed "f").length = 2 := by
  decide +kernel

end Verif

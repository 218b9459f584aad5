import Verif.Lemmas.DialectFile
import Verif.Lemmas.Variants
/-!
# Dialect files (C80), listing functions by signature (C82), lookup by argument count (C81)
-/

namespace Verif

/-! ## C80 -/

theorem validate_ok {d d' : DialectFile} (h : d.validate = .ok d') :
    d.types ≠ [] ∧ (d.scalars ≠ [] ∨ d.aggregates ≠ [] ∨ d.windows ≠ []) ∧
    Res.mapL d.validateFunction d.scalars = .ok d'.scalars ∧
    Res.mapL d.validateFunction d.aggregates = .ok d'.aggregates ∧
    Res.mapL d.validateFunction d.windows = .ok d'.windows ∧
    d'.dependencies = d.dependencies ∧ d'.types = d.types := by
  unfold DialectFile.validate at h
  split at h
  · cases h
  · rename_i h1
    split at h
    · cases h
    · rename_i h2
      obtain ⟨s, hs, h⟩ := Res.bind_eq_ok.1 h
      obtain ⟨a, ha, h⟩ := Res.bind_eq_ok.1 h
      obtain ⟨w, hw, h⟩ := Res.bind_eq_ok.1 h
      cases h
      refine ⟨h1, ?_, hs, ha, hw, rfl, rfl⟩
      simp only [Bool.and_eq_true, List.isEmpty_iff, not_and] at h2
      by_cases hs' : d.scalars = []
      · by_cases ha' : d.aggregates = []
        · exact .inr (.inr (h2 ⟨hs', ha'⟩))
        · exact .inr (.inl ha')
      · exact .inl hs'

/-- Loading a dialect never panics. (The dependencies are a Go map, so their names are distinct.) -/
theorem C80_no_panic (d : DialectFile) (hn : (d.dependencies.map Prod.fst).Nodup) : d.load ≠ .panic := by
  unfold DialectFile.load
  refine Res.bind_ne_panic ?_ fun d' h => ?_
  · unfold DialectFile.validate
    split
    · simp
    · split
      · simp
      · exact Res.bind_ne_panic (mapL_ne_panic _ _ (validateFunction_ne_panic d)) fun _ _ =>
          Res.bind_ne_panic (mapL_ne_panic _ _ (validateFunction_ne_panic d)) fun _ _ =>
          Res.bind_ne_panic (mapL_ne_panic _ _ (validateFunction_ne_panic d)) fun _ _ => by simp
  · obtain ⟨-, -, hs, ha, hw, hd, -⟩ := validate_ok h
    obtain ⟨S, hS, -⟩ := infoMap_ok hn hd hs
    obtain ⟨A, hA, -⟩ := infoMap_ok hn hd ha
    obtain ⟨W, hW, -⟩ := infoMap_ok hn hd hw
    rw [hS, hA, hW]
    simp

/-- Which dialect files are accepted. -/
theorem C80_accepts (d : DialectFile) (hn : (d.dependencies.map Prod.fst).Nodup) :
    (∃ D, d.load = .ok D) ↔
      d.types ≠ [] ∧ (d.scalars ≠ [] ∨ d.aggregates ≠ [] ∨ d.windows ≠ []) ∧
      (∀ f ∈ d.scalars, d.Proper f) ∧ (∀ f ∈ d.aggregates, d.Proper f) ∧ ∀ f ∈ d.windows, d.Proper f := by
  constructor
  · rintro ⟨D, h⟩
    unfold DialectFile.load at h
    obtain ⟨d', h, -⟩ := Res.bind_eq_ok.1 h
    obtain ⟨h1, h2, hs, ha, hw, -, -⟩ := validate_ok h
    refine ⟨h1, h2, ?_, ?_, ?_⟩ <;> intro f hf
    · obtain ⟨g, -, hg⟩ := forall₂_mem_left (mapL_forall₂.1 hs) hf
      exact ((validateFunction_ok hn).1 hg).1
    · obtain ⟨g, -, hg⟩ := forall₂_mem_left (mapL_forall₂.1 ha) hf
      exact ((validateFunction_ok hn).1 hg).1
    · obtain ⟨g, -, hg⟩ := forall₂_mem_left (mapL_forall₂.1 hw) hf
      exact ((validateFunction_ok hn).1 hg).1
  · rintro ⟨h1, h2, hs, ha, hw⟩
    obtain ⟨s, hs⟩ := mapL_total fun f hf => validateFunction_total hn (hs f hf)
    obtain ⟨a, ha⟩ := mapL_total fun f hf => validateFunction_total hn (ha f hf)
    obtain ⟨w, hw⟩ := mapL_total fun f hf => validateFunction_total hn (hw f hf)
    have hv : d.validate = .ok { d with scalars := s, aggregates := a, windows := w } := by
      unfold DialectFile.validate
      rw [if_neg h1, if_neg]
      · rw [hs, ha, hw]; rfl
      · simp only [Bool.and_eq_true, List.isEmpty_iff, not_and]
        rintro ⟨e1, e2⟩ e3
        rcases h2 with h | h | h
        · exact h e1
        · exact h e2
        · exact h e3
    unfold DialectFile.load
    rw [hv]
    obtain ⟨S, hS, -⟩ := infoMap_ok (d' := { d with scalars := s, aggregates := a, windows := w }) hn rfl hs
    obtain ⟨A, hA, -⟩ := infoMap_ok (d' := { d with scalars := s, aggregates := a, windows := w }) hn rfl ha
    obtain ⟨W, hW, -⟩ := infoMap_ok (d' := { d with scalars := s, aggregates := a, windows := w }) hn rfl hw
    simp only [Res.ok_bind, hS, hA, hW]
    exact ⟨_, rfl⟩

/-- What a loaded dialect has: the types of the file, and for each kind what the file says about its
functions. -/
theorem C80_contents {d : DialectFile} (hn : (d.dependencies.map Prod.fst).Nodup) {D : Dialect}
    (h : d.load = .ok D) :
    D.types = d.types ∧ d.Holds d.scalars D.scalars ∧ d.Holds d.aggregates D.aggregates ∧
      d.Holds d.windows D.windows := by
  unfold DialectFile.load at h
  obtain ⟨d', h', h⟩ := Res.bind_eq_ok.1 h
  obtain ⟨-, -, hs, ha, hw, hd, ht⟩ := validate_ok h'
  obtain ⟨S, hS, kS⟩ := infoMap_ok hn hd hs
  obtain ⟨A, hA, kA⟩ := infoMap_ok hn hd ha
  obtain ⟨W, hW, kW⟩ := infoMap_ok hn hd hw
  rw [hS, hA, hW] at h
  cases h
  exact ⟨ht, kS, kA, kW⟩

/-- a dialect file -/
def exDialectFile : DialectFile :=
  ⟨[("i32", "INT", true)],
   [⟨"arith.add", "+", true, false, [("overflow", "ERROR")], ["i32_i32", "any1_any1"]⟩,
    ⟨"arith.neg", "", false, false, [], ["i32"]⟩], [], [⟨"arith.rank", "", false, true, [], [""]⟩],
   [("arith", "extension:io.substrait:functions_arithmetic")]⟩

example : (exDialectFile.dependencies.map Prod.fst).Nodup ∧ ∃ D, exDialectFile.load = .ok D ∧
    D.scalars.entries.map Prod.snd =
      [⟨⟨"extension:io.substrait:functions_arithmetic", "add:i32_i32"⟩, "add", "+", [("overflow", ["ERROR"])], .inf⟩,
       ⟨⟨"extension:io.substrait:functions_arithmetic", "add:any_any"⟩, "add", "+", [("overflow", ["ERROR"])], .inf⟩,
       ⟨⟨"extension:io.substrait:functions_arithmetic", "neg:i32"⟩, "neg", "neg", [], .pre⟩] ∧
    D.windows.entries.map Prod.snd =
      [⟨⟨"extension:io.substrait:functions_arithmetic", "rank:"⟩, "rank", "rank", [], .post⟩] :=
  ⟨by decide, _, rfl, rfl, rfl⟩

example : (⟨[("i32", "INT", true)], [⟨"arith.add.x", "+", true, false, [], ["i32"]⟩], [], [],
    [("arith", "u")]⟩ : DialectFile).load = .err := rfl

/-! ### The names of loaded functions and of registered functions agree -/

/-- For a loaded dialect, the condition on names of C50 holds whenever the registry computes the
identifiers from the names, and no name contains a colon. -/
theorem C80_names {d : DialectFile} {fs : List DialectFn} {D : GoMap ExtId FnInfo}
    (h : d.Holds fs D) (hc : ∀ f ∈ fs, ':' ∉ f.name.toList) {gs : List RegFn}
    (hg : ∀ g ∈ gs, ':' ∉ g.name.toList ∧ ∃ sig, g.id.name = g.name ++ ":" ++ sig) : NamesAgree D gs := by
  intro g hm p hp he
  obtain ⟨f, hf, k, hk, urn, fn, key, ⟨dep, hn, -⟩, -, hid, hname, -⟩ := h.2.1 p hp
  obtain ⟨hgc, sig, hsig⟩ := hg g hm
  have hfc : ':' ∉ fn.toList := by
    have := hc f hf
    rw [hn] at this
    simp only [String.toList_append, List.mem_append, not_or] at this
    exact this.2
  rw [hname]
  rw [he] at hid
  have h1 : g.name ++ ":" ++ sig = fn ++ ":" ++ key := by rw [← hsig, hid]
  have h2 : g.name.toList ++ ':' :: sig.toList = fn.toList ++ ':' :: key.toList := by
    have := congrArg String.toList h1
    simpa using this
  have h3 := congrArg (splitChar ':') h2
  rw [splitChar_append _ _ _ hgc, splitChar_append _ _ _ hfc] at h3
  rw [← String.toList_inj]
  exact (List.cons.inj h3).1.symm

example : exDialectFile.load.isOk ∧ (∀ f ∈ exDialectFile.scalars, ':' ∉ f.name.toList) := by
  refine ⟨rfl, ?_⟩
  simp [exDialectFile]

/-! ## C82 -/

/-- A function whose parameters are all primitive, any, decimal, fixed-length or with a time precision
can be listed in a dialect by its signature, and is then found under its identifier.

Missing from the full statement: other parameters, see `C82_refused`. -/
theorem C82_listed_partial {ps : List FuncParam} (hp : ∀ p ∈ ps, match p with
      | .value (.prim ..) | .value (.any ..) | .value (.single ..) | .value (.decimal ..) => True
      | _ => False) {sig : String} (hs : signatureKey ps = .ok sig) : fixKernel sig = .ok sig := by
  unfold signatureKey at hs
  obtain ⟨ss, hm, he⟩ := Res.bind_eq_ok.1 hs
  cases he
  have hf := mapL_forall₂.1 hm
  have hpart : ∀ s ∈ ss, '_' ∉ s.toList ∧ IsKernelType s ∧ SameKernelType s s := by
    intro s hs
    obtain ⟨p, hpm, hps⟩ := forall₂_mem_right hf hs
    have hk : ∀ s : String, '_' ∉ s.toList → s ∈ knownTypeNames → s.toList.take 3 ≠ ['a', 'n', 'y'] →
        '_' ∉ s.toList ∧ IsKernelType s ∧ SameKernelType s s := fun s h1 h2 h3 =>
      ⟨h1, .inr (.inr h2), .inr ⟨fun h => h3 ((any_prefix s).2 h), rfl⟩⟩
    have hp := hp p hpm
    match p, hp, hps with
    | .value (.prim k n v), _, hps =>
      cases hps
      have : ∀ k : Prim, '_' ∉ k.shortString.toList ∧ k.shortString ∈ knownTypeNames ∧
          k.shortString.toList.take 3 ≠ ['a', 'n', 'y'] := by intro k; cases k <;> decide +kernel
      exact hk k.shortString (this k).1 (this k).2.1 (this k).2.2
    | .value (.any n x), _, hps =>
      cases hps
      exact ⟨(by decide +kernel : '_' ∉ "any".toList), .inr (.inl ⟨"", rfl⟩), .inl ⟨⟨"", rfl⟩, rfl⟩⟩
    | .value (.single k n x), _, hps =>
      cases hps
      have : ∀ k : Single, '_' ∉ k.shortString.toList ∧ k.shortString ∈ knownTypeNames ∧
          k.shortString.toList.take 3 ≠ ['a', 'n', 'y'] := by
        intro k; rcases k with k | k <;> cases k <;> decide +kernel
      exact hk k.shortString (this k).1 (this k).2.1 (this k).2.2
    | .value (.decimal n x y), _, hps =>
      cases hps
      exact hk "dec" (by decide +kernel) (by decide +kernel) (by decide +kernel)
  by_cases hne : ss = []
  · subst hne; rfl
  · rw [fixKernel_ok, splitString_joined ss hne fun s hs => (hpart s hs).1]
    refine ⟨fun a ha => (hpart a ha).2.1, ?_⟩
    have : ∀ l : List String, (∀ s ∈ l, SameKernelType s s) → List.Forall₂ SameKernelType l l := by
      intro l
      induction l with
      | nil => exact fun _ => .nil
      | cons a l ih => exact fun h => .cons (h a List.mem_cons_self) (ih fun s hs => h s (List.mem_cons_of_mem _ hs))
    exact this ss fun s hs => (hpart s hs).2.2

example : signatureKey [.value (.prim .i32 2 0), .value (.any 2 "any1"), .value (.decimal 2 (.concrete 38) (.var "S"))] =
    .ok "i32_any_dec" := rfl

/-- A function with an enum argument, a type argument or a list, map, struct or function parameter cannot
be listed. -/
theorem C82_refused {ps : List FuncParam} (hp : ∃ p ∈ ps, match p with
      | .enum .. | .type _ | .value (.list ..) | .value (.map ..) | .value (.struct ..) | .value (.func ..) => True
      | _ => False) {sig : String} (hs : signatureKey ps = .ok sig) : fixKernel sig = .err := by
  unfold signatureKey at hs
  obtain ⟨ss, hm, he⟩ := Res.bind_eq_ok.1 hs
  cases he
  obtain ⟨p, hpm, hp⟩ := hp
  obtain ⟨s, hs, hps⟩ := forall₂_mem_left (mapL_forall₂.1 hm) hpm
  have hbad : '_' ∉ s.toList ∧ ¬ IsKernelType s := by
    have key : ∀ s : String, '_' ∉ s.toList → s ≠ "" → s ∉ knownTypeNames → s.toList.take 3 ≠ ['a', 'n', 'y'] →
        '_' ∉ s.toList ∧ ¬ IsKernelType s := by
      intro s h1 h2 h3 h4
      refine ⟨h1, ?_⟩
      rintro (h | h | h)
      · exact h2 h
      · exact h4 ((any_prefix s).2 h)
      · exact h3 h
    match p, hp, hps with
    | .enum .., _, hps => cases hps; exact key _ (by decide +kernel) (by decide) (by decide +kernel) (by decide +kernel)
    | .type _, _, hps => cases hps; exact key _ (by decide +kernel) (by decide) (by decide +kernel) (by decide +kernel)
    | .value (.list ..), _, hps => cases hps; exact key "list" (by decide +kernel) (by decide) (by decide +kernel) (by decide +kernel)
    | .value (.map ..), _, hps => cases hps; exact key "map" (by decide +kernel) (by decide) (by decide +kernel) (by decide +kernel)
    | .value (.struct ..), _, hps => cases hps; exact key "struct" (by decide +kernel) (by decide) (by decide +kernel) (by decide +kernel)
    | .value (.func ..), _, hps => cases hps; exact key "func" (by decide +kernel) (by decide) (by decide +kernel) (by decide +kernel)
  have hmem : s ∈ splitString '_' ("_".intercalate ss) := by
    rw [splitString_intercalate ss (List.ne_nil_of_mem hs)]
    exact List.mem_flatMap.2 ⟨s, hs, by rw [splitString_of_not_mem _ _ hbad.1]; simp⟩
  cases h : fixKernel ("_".intercalate ss) with
  | err => rfl
  | panic => exact absurd h (fixKernel_ne_panic _)
  | ok k => exact absurd ((fixKernel_ok.1 h).1 s hmem) hbad.2

/-- The full claim of C82. -/
def C82_statement : Prop :=
  ∀ (ps : List FuncParam) (sig : String), signatureKey ps = .ok sig → fixKernel sig = .ok sig

/-- It is false: `extract`, whose first argument is an enum, cannot be in any dialect. -/
theorem C82_negation : ¬ C82_statement := by
  intro h
  have h1 := h [.enum "component" ["YEAR", "MONTH"], .value (.prim .timestamp 2 0)] "req_ts" rfl
  have h2 : fixKernel "req_ts" = .err :=
    C82_refused (ps := [.enum "component" ["YEAR", "MONTH"], .value (.prim .timestamp 2 0)])
      ⟨_, List.mem_cons_self, trivial⟩ (sig := "req_ts") rfl
  rw [h2] at h1
  cases h1

/-! ## C81 -/

/-- What a lookup by name and argument count returns. -/
theorem C81_exact (fs : List RegFn) (name : String) (n : Int) (f : RegFn) :
    f ∈ functionsByCount (functionsByName (processFunctions fs) name) n ↔
      f ∈ fs ∧ f.name = name ∧ f.Takes n := by
  unfold functionsByCount
  rw [functionsByName_eq]
  simp only [List.mem_filter, decide_eq_true_eq, takesCount_iff, and_assoc]

/-- A function that accepts the arguments of a call is found by its name and the number of arguments.

Missing from the full statement: variadic functions with several parameters and an upper limit, see
`C81_negation`. -/
theorem C81_found_partial {fs : List RegFn} {f : RegFn} (hf : f ∈ fs) {nh : NullHandling} {args args' : List Ty}
    (hm : matchArguments nh f.args f.variadic args = .ok (true, args'))
    (hv : ∀ v, f.variadic = some v → f.args.length ≤ 1 ∨ v.max = 0) :
    f ∈ functionsByCount (functionsByName (processFunctions fs) f.name) args.length := by
  rw [C81_exact]
  refine ⟨hf, rfl, ?_⟩
  have hadm : Admissible f.args.length f.variadic args.length := by
    unfold matchArguments at hm
    obtain ⟨⟨b, args1⟩, h1, h2⟩ := Res.bind_eq_ok.1 hm
    cases b with
    | false => simp at h2
    | true => exact (matchCount_true h1).1
  unfold Admissible at hadm
  unfold RegFn.Takes
  cases hvar : f.variadic with
  | none => rw [hvar] at hadm; left; simp only at hadm; rw [hadm]
  | some v =>
    rw [hvar] at hadm
    obtain ⟨h1, h2, h3, h4⟩ := hadm
    right
    refine ⟨v, rfl, by omega, ?_⟩
    rcases hv v hvar with h | h
    · rcases h4 with h4 | h4
      · exact .inl h4
      · right; omega
    · exact .inl h

/-- The full claim of C81. -/
def C81_statement : Prop :=
  ∀ (fs : List RegFn) (f : RegFn) (nh : NullHandling) (args args' : List Ty), f ∈ fs →
    matchArguments nh f.args f.variadic args = .ok (true, args') →
    f ∈ functionsByCount (functionsByName (processFunctions fs) f.name) args.length

/-- `f(i32, i32)` whose last parameter may be given once or twice -/
def exLastTwice : RegFn :=
  ⟨⟨"u", "f:i32_i32"⟩, "f", [.value (.prim .i32 2 0), .value (.prim .i32 2 0)], some ⟨1, 2, false⟩⟩

/-- It is false: a function with two parameters, whose last may be given once or twice, accepts three
arguments but is not found for three. -/
theorem C81_negation : ¬ C81_statement := by
  intro h
  have := h [exLastTwice] exLastTwice .mirror [.prim .i32 2 0, .prim .i32 2 0, .prim .i32 2 0]
    [.prim .i32 2 0, .prim .i32 2 0, .prim .i32 2 0] (by simp) (by
      simp [exLastTwice, matchArguments, matchCount, validateVariadic, Variadic.validCount, funcDefs, matchEach,
        matchArgumentAtCommon, Variadic.validPosition, Res.index, FTy.matchLoose, hasSyncParams, FTy.leaves,
        validateAny, expandParams, bindAnyTypesList, bindAnyTypes, touchAnyList, touchAny])
  rw [C81_exact] at this
  obtain ⟨-, -, h | ⟨v, hv, -, h⟩⟩ := this
  · revert h; decide
  · cases hv; revert h; decide

/-- `concat(str…)` with at least two arguments -/
def exConcat : RegFn := ⟨⟨"u", "concat:str"⟩, "concat", [.value (.prim .string 2 0)], some ⟨2, 0, false⟩⟩

example : exConcat ∈ [exLastTwice, exConcat] ∧
    matchArguments .mirror exConcat.args exConcat.variadic [.prim .string 2 0, .prim .string 2 0] =
      .ok (true, [.prim .string 2 0, .prim .string 2 0]) ∧
    ∀ v, exConcat.variadic = some v → exConcat.args.length ≤ 1 ∨ v.max = 0 := by
  refine ⟨by simp, ?_, fun v _ => .inl (by decide)⟩
  simp [exConcat, matchArguments, matchCount, validateVariadic, Variadic.validCount, funcDefs, matchEach,
    matchArgumentAtCommon, Variadic.validPosition, Res.index, FTy.matchLoose, hasSyncParams, FTy.leaves,
    validateAny, expandParams, bindAnyTypesList, bindAnyTypes, touchAnyList, touchAny]

end Verif

import Verif.Lemmas.FuncName
import Verif.Props.FuncCall
import Verif.Props.NoPanic
/-!
# C90: calls of functions that no loaded extension declares
-/

namespace Verif

/-- C90, as stated: calls of a function that the plan names, but no loaded extension declares, are read as
calls of that function. -/
def C90_statement : Prop :=
  ∀ (rest : Reg) (c : Collection) (s : ExtSet) (base : Option (List Ty)) (ref : UInt32) (id : ExtId),
    s.Tidy → s.decode .func ref = some id → KeepsCalls rest c s base ref id

theorem keepsCalls_of {rest : Reg} {c : Collection} {s : ExtSet} {base : Option (List Ty)} {ref : UInt32}
    {id : ExtId} (hd : s.decode .func ref = some id) (hc : s.customCall id = .ok ((ref, id.name), s)) :
    KeepsCalls rest c s base ref id := by
  have hcust : (Reg.ofSet rest c s).custom id = .ok (ref, id.name) := by
    simp only [Reg.ofSet, hc, Res.ok_bind]
  have hdec : (Reg.ofSet rest c s).decodeFunc ref = some id := hd
  have hnone : ∀ k, s.lookupFunc c k ref = none → s.declarationOf c k ref = none := by
    intro k h
    simp only [ExtSet.declarationOf, h]
  constructor
  · intro hl opts out t args as ha ht
    have h1 : (Reg.ofSet rest c s).scalar ref = none := hnone _ hl
    simp only [Expr.fromProto, ha, Res.ok_bind, resolveCall, hdec, h1, hcust, ht]
  · intro hl opts out t w args as sorts ss parts ps ha hs hp ht
    have h1 : (Reg.ofSet rest c s).window ref = none := hnone _ hl
    refine ⟨w.toAttrs, ?_, rfl, rfl, rfl⟩
    simp only [Expr.fromProto, ha, hs, hp, Res.ok_bind, resolveCall, hdec, h1, hcust, ht]
  · intro hl opts out t phase inv args as sorts ss ha hs ht
    have h1 : (Reg.ofSet rest c s).aggregate ref = none := hnone _ hl
    refine ⟨⟨⟨ref, "", opts, t⟩, phase, inv, as, ss⟩, ?_, rfl, rfl, rfl, rfl, rfl, rfl, rfl⟩
    simp only [aggFromProto, ha, hs, Res.ok_bind, resolveAgg, hdec, h1, hcust, ht]

/-- **C90 (partial)**, for compound names whose signature has only parts from `keptNames` and user-defined
types. -/
theorem C90_kept_partial (rest : Reg) (c : Collection) (s : ExtSet) (base : Option (List Ty)) (ref : UInt32)
    (id : ExtId) (hs : s.Tidy) (hd : s.decode .func ref = some id) (hn : KeptName id.name) :
    KeepsCalls rest c s base ref id :=
  keepsCalls_of hd (customCall_kept ((hs.1 _ _ _).1 hd) hn)

/-- **C90 (partial)**: reading such a call does not change which functions the references stand for. -/
theorem C90_unchanged_partial (s : ExtSet) (ref : UInt32) (id : ExtId) (hs : s.Tidy)
    (hd : s.decode .func ref = some id) (hn : KeptName id.name) :
    s.customCall id = .ok ((ref, id.name), s) :=
  customCall_kept ((hs.1 _ _ _).1 hd) hn

/-- a set in which a function of the extension `urn` has a reference -/
theorem named_set (urn name : String) : ∃ ref s, ExtSet.new.getAnchor .func ⟨urn, name⟩ = .ok (ref, s) ∧
    s.Tidy ∧ s.decode .func ref = some ⟨urn, name⟩ := by
  obtain ⟨a, s, h1, h2, h3, _⟩ := freshInv_step (L := [⟨.func, ⟨urn, name⟩⟩]) (by simp) (freshInv_new _) .func
    ⟨urn, name⟩ (by simp)
  exact ⟨a, s, h1, h2.tidy, (h2.tidy.1 _ _ _).2 h3⟩

/-- The hypotheses are met: by a function of two integers and a user-defined type, which `oneCollection`
does not have. -/
example : ∃ (ref : UInt32) (s : ExtSet), s.Tidy ∧ s.decode .func ref = some ⟨"extension:acme:f", "h:i32_i64_u!Point"⟩ ∧
    KeptName "h:i32_i64_u!Point" ∧ oneCollection.getFunc .scalar ⟨"extension:acme:f", "h:i32_i64_u!Point"⟩ = none := by
  obtain ⟨ref, s, _, h1, h2⟩ := named_set "extension:acme:f" "h:i32_i64_u!Point"
  refine ⟨ref, s, h1, h2, ⟨"h", ["i32", "i64", "u!Point"], by decide +kernel, ?_, by decide +kernel⟩, rfl⟩
  intro p hp
  simp only [List.mem_cons, List.not_mem_nil, or_false] at hp
  rcases hp with rfl | rfl | rfl
  · exact .inl (by simp [keptNames])
  · exact .inl (by simp [keptNames])
  · refine .inr ⟨"Point", ⟨⟨'P', "oint".toList, by decide +kernel, by simp [IsLetter], ?_⟩, by decide +kernel, ?_⟩,
      by decide +kernel, by decide +kernel⟩
    · intro d hd
      refine .inl (.inl ?_)
      revert d
      decide +kernel
    · intro d _ h
      exact absurd (show (5 : Nat) = 4 from congrArg List.length h) (by omega)

/-! ## What is not kept -/

/-- What reading a call makes of a function without a declaration, for the three kinds of functions. -/
theorem read_custom (rest : Reg) (c : Collection) (s : ExtSet) (base : Option (List Ty)) (ref : UInt32)
    (id : ExtId) (hd : s.decode .func ref = some id) (hc : s.customCall id = .panic) :
    (s.lookupFunc c .scalar ref = none → ∀ opts out args as,
      EArg.fromProtoList (Reg.ofSet rest c s) base args = .ok as →
      Expr.fromProto (Reg.ofSet rest c s) base (.scalar ref opts (some out) args) = .panic) ∧
    (s.lookupFunc c .window ref = none → ∀ opts out w args as sorts ss parts ps,
      EArg.fromProtoList (Reg.ofSet rest c s) base args = .ok as →
      ESort.fromProtoList (Reg.ofSet rest c s) base sorts = .ok ss →
      Expr.fromProtoList (Reg.ofSet rest c s) base parts = .ok ps →
      Expr.fromProto (Reg.ofSet rest c s) base (.window ref opts (some out) w args sorts parts) = .panic) ∧
    (s.lookupFunc c .aggregate ref = none → ∀ opts out phase inv args as sorts ss,
      EArg.fromProtoList (Reg.ofSet rest c s) base args = .ok as →
      ESort.fromProtoList (Reg.ofSet rest c s) base sorts = .ok ss →
      aggFromProto (Reg.ofSet rest c s) base (some ⟨ref, opts, some out, phase, inv, args, sorts⟩) = .panic) := by
  have hcust : (Reg.ofSet rest c s).custom id = .panic := by
    simp only [Reg.ofSet, hc, Res.panic_bind]
  have hdec : (Reg.ofSet rest c s).decodeFunc ref = some id := hd
  have hnone : ∀ k, s.lookupFunc c k ref = none → s.declarationOf c k ref = none := by
    intro k h
    simp only [ExtSet.declarationOf, h]
  refine ⟨?_, ?_, ?_⟩
  · intro hl opts out args as ha
    have h1 : (Reg.ofSet rest c s).scalar ref = none := hnone _ hl
    simp only [Expr.fromProto, ha, Res.ok_bind, resolveCall, hdec, h1, hcust, Res.panic_bind]
  · intro hl opts out w args as sorts ss parts ps ha hs hp
    have h1 : (Reg.ofSet rest c s).window ref = none := hnone _ hl
    simp only [Expr.fromProto, ha, hs, hp, Res.ok_bind, resolveCall, hdec, h1, hcust, Res.panic_bind]
  · intro hl opts out phase inv args as sorts ss ha hs
    have h1 : (Reg.ofSet rest c s).aggregate ref = none := hnone _ hl
    simp only [aggFromProto, ha, hs, Res.ok_bind, resolveAgg, hdec, h1, hcust, Res.panic_bind]

/-- a signature with a refused name makes the reader panic -/
theorem customCall_refused (s : ExtSet) (urn f : String) (parts : List String) (hf : ':' ∉ f.toList)
    (hp : ∀ p ∈ parts, '_' ∉ p.toList) (hr : ∃ p ∈ parts, p ∈ refusedNames) :
    s.customCall ⟨urn, compoundOf f parts⟩ = .panic := by
  obtain ⟨p, hpp, hpr⟩ := hr
  obtain ⟨h1, h2, h3⟩ := paramOfText_refused p hpr
  have hne : parts ≠ [] := List.ne_nil_of_mem hpp
  have hi : "_".intercalate parts ≠ "" := by
    intro h
    have := splitString_joined parts hne hp
    rw [h, show splitString '_' "" = [""] from rfl] at this
    rw [← this, List.mem_singleton] at hpp
    exact h3 hpp
  simp only [ExtSet.customCall, newFuncVariant, parseFuncName_compound hf hne hp hi,
    params_panic parts ⟨p, hpp, h1⟩, Res.panic_bind]

/-- **C90, negation: signatures.** If the signature has a part like `str`, `bool`, `dec` or `list`, which is
how functions of strings, booleans, decimals and lists are named, reading a call of the function panics.
Here for scalar functions; the text of the part is all that matters. -/
theorem C90_negation_signature (rest : Reg) (c : Collection) (s : ExtSet) (base : Option (List Ty))
    (ref : UInt32) (urn f : String) (parts : List String) (hf : ':' ∉ f.toList)
    (hp : ∀ p ∈ parts, '_' ∉ p.toList) (hr : ∃ p ∈ parts, p ∈ refusedNames)
    (hd : s.decode .func ref = some ⟨urn, compoundOf f parts⟩) (hl : s.lookupFunc c .scalar ref = none)
    (opts : List (String × List String)) (out : PTy) :
    Expr.fromProto (Reg.ofSet rest c s) base (.scalar ref opts (some out) []) = .panic :=
  (read_custom rest c s base ref _ hd (customCall_refused s urn f parts hf hp hr)).1 hl opts out [] []
    (by rw [EArg.fromProtoList])

/-- a set with a function of strings -/
theorem string_function : ∃ (ref : UInt32) (s : ExtSet), s.Tidy ∧ s.decode .func ref = some ⟨"extension:acme:f", "h:str"⟩ ∧
    s.lookupFunc oneCollection .scalar ref = none := by
  obtain ⟨ref, s, _, h1, h2⟩ := named_set "extension:acme:f" "h:str"
  refine ⟨ref, s, h1, h2, ?_⟩
  simp only [ExtSet.lookupFunc, h2]
  rfl

/-- **C83, negation: functions.** A call of a function of strings that the plan declares, in an extension
that is loaded but does not have it, makes the reader panic. -/
theorem C83_negation_function : ∃ (s : ExtSet) (ref : UInt32), s.Tidy ∧
    s.decode .func ref = some ⟨"extension:acme:f", "h:str"⟩ ∧ ∀ rest base opts out,
    Expr.fromProto (Reg.ofSet rest oneCollection s) base (.scalar ref opts (some out) []) = .panic := by
  obtain ⟨ref, s, h1, h2, h3⟩ := string_function
  refine ⟨s, ref, h1, h2, fun rest base opts out => ?_⟩
  exact C90_negation_signature rest oneCollection s base ref _ "h" ["str"] (by decide +kernel)
    (by decide +kernel) ⟨"str", by simp, by simp [refusedNames]⟩ h2 h3 opts out

theorem C90_negation : ¬ C90_statement := by
  intro h
  obtain ⟨ref, s, h1, h2, h3⟩ := string_function
  have := (h exReg oneCollection s none ref _ h1 h2).scalar h3 [] (.prim .i32 2 0) (.prim .i32 2 0) [] []
    (by rw [EArg.fromProtoList]) (by rfl)
  rw [C90_negation_signature exReg oneCollection s none ref _ "h" ["str"] (by decide +kernel)
    (by decide +kernel) ⟨"str", by simp, by simp [refusedNames]⟩ h2 h3] at this
  cases this

/-- **C90, negation: names without a signature.** The call of a function that is named without a signature
is read as a call of another function, the one with a colon after the name. -/
theorem C90_negation_name (s s' : ExtSet) (urn f : String) (hf : ':' ∉ f.toList) (r : UInt32 × String)
    (h : s.customCall ⟨urn, f⟩ = .ok (r, s')) : r.2 = f ++ ":" ∧ r.2 ≠ f := by
  have h1 : newFuncVariant .scalar ⟨urn, f⟩ = .ok ⟨f, "", urn, FuncKind.scalar.fill ⟨[], none, none, "", "", .unset, none, {}⟩⟩ := by
    simp only [newFuncVariant, parseFuncName, cutColon_none _ hf, if_true, String.ofList_toList, Res.ok_bind]
  have h2 : r.2 = f ++ ":" := by
    simp only [ExtSet.customCall, h1, Res.ok_bind, Variant.id, Variant.compoundName, fill_args, signatureKey,
      Res.mapL_nil, Res.bind_eq_ok] at h
    obtain ⟨x, h3, h⟩ := h
    cases h
    rw [show "_".intercalate [] = "" from rfl]
    simp
  refine ⟨h2, ?_⟩
  rw [h2, Ne, ← String.toList_inj, String.toList_append]
  intro h
  have := congrArg List.length h
  simp at this

/-- a plan with the functions `f:i32`, which `oneCollection` has, as number 3 and `h` as number 1 -/
def twoFunctions : Res ExtSet :=
  getExtensionSet oneCollection.urnLoaded
    ⟨[(1, "extension:acme:f")], [some (.func 1 1 "h"), some (.func 1 3 "f:i32")]⟩

/-- **C90, negation: other functions.** Reading a call of `h` makes the reference of another function of
the plan, which the collection has, stand for a function `h:`. -/
theorem C90_negation_other : ∃ s s', twoFunctions = .ok s ∧
    s.decode .func 1 = some ⟨"extension:acme:f", "h"⟩ ∧ s.decode .func 3 = some ⟨"extension:acme:f", "f:i32"⟩ ∧
    (s.lookupFunc oneCollection .scalar 3).isSome = true ∧
    s.customCall ⟨"extension:acme:f", "h"⟩ = .ok ((3, "h:"), s') ∧
    s'.decode .func 3 = some ⟨"extension:acme:f", "h:"⟩ ∧ s'.lookupFunc oneCollection .scalar 3 = none :=
  ⟨_, _, rfl, rfl, rfl, rfl, rfl, rfl, rfl⟩

end Verif

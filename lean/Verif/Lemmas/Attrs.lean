import Verif.Lemmas.Collection
import Verif.Props.Collection
import Verif.Spec.Attrs
/-!
# Lemmas about the attributes of functions
-/

namespace Verif

theorem ofString_cases (w : Option String) :
    (w = none → NullHandling.ofString (setDefault (w.getD "") "MIRROR") = .mirror) ∧
    (w = some "MIRROR" → NullHandling.ofString (setDefault (w.getD "") "MIRROR") = .mirror) ∧
    (w = some "DECLARED_OUTPUT" → NullHandling.ofString (setDefault (w.getD "") "MIRROR") = .declaredOutput) ∧
    (w = some "DISCRETE" → NullHandling.ofString (setDefault (w.getD "") "MIRROR") = .discrete) := by
  refine ⟨?_, ?_, ?_, ?_⟩ <;> (rintro rfl; simp [setDefault, NullHandling.ofString])

theorem writtenOr_fill (w : Option String) (d : String) :
    WrittenOr w d (if w.getD "" = "" then d else w.getD "") := by
  refine ⟨?_, ?_⟩
  · rintro rfl; simp
  · rintro s rfl hs; simp [hs]

/-- the variant made of an implementation answers for it -/
theorem answers_fill {k w : FuncKind} {urn name desc : String} (i : RawImpl) (hw : w = k) :
    (⟨name, desc, urn, k.fill i.unmarshal.setDefaults.impl⟩ : Variant).Answers k urn name w i := by
  subst hw
  have hv : ∀ x, i.variadic = some x → ∃ b, i.unmarshal.setDefaults.impl.variadic = some b ∧ b.min = x.min.getD 0 ∧
      b.max = x.max.getD 0 ∧ (x.consistency = none → b.consistent = true) ∧
      (x.consistency = some "CONSISTENT" → b.consistent = true) ∧
      ∀ text, x.consistency = some text → text ≠ "" → text ≠ "CONSISTENT" → b.consistent = false := by
    intro x hx
    refine ⟨_, by simp only [GoImpl.impl, GoImpl.setDefaults, RawImpl.unmarshal, hx, Option.map_some]; rfl, rfl, rfl,
      fun e => ?_, fun e => ?_, fun text e h1 h2 => ?_⟩
    · simp [GoVariadic.variadic, setDefault, e]
    · simp [GoVariadic.variadic, setDefault, e]
    · simp [GoVariadic.variadic, setDefault, e, h1, h2]
  cases w
  · refine ⟨rfl, rfl, rfl, rfl, rfl, rfl, ?_, rfl, rfl, rfl, ofString_cases _, ?_, hv, by simp, by simp⟩
    · cases h : i.deterministic <;> simp [FuncKind.fill, GoImpl.impl, GoImpl.setDefaults, RawImpl.unmarshal, h]
    · intro h; simp [FuncKind.fill, GoImpl.impl, GoImpl.setDefaults, RawImpl.unmarshal, h]
  · refine ⟨rfl, rfl, rfl, rfl, rfl, rfl, ?_, rfl, rfl, rfl, ofString_cases _, ?_, hv,
      fun _ => writtenOr_fill _ _, by simp⟩
    · cases h : i.deterministic <;> simp [FuncKind.fill, GoImpl.impl, GoImpl.setDefaults, RawImpl.unmarshal, h]
    · intro h; simp [FuncKind.fill, GoImpl.impl, GoImpl.setDefaults, RawImpl.unmarshal, h]
  · refine ⟨rfl, rfl, rfl, rfl, rfl, rfl, ?_, rfl, rfl, rfl, ofString_cases _, ?_, hv,
      fun _ => writtenOr_fill _ _, fun _ => ⟨fun _ => writtenOr_fill _ _, by simp⟩⟩
    · cases h : i.deterministic <;> simp [FuncKind.fill, GoImpl.impl, GoImpl.setDefaults, RawImpl.unmarshal, h]
    · intro h; simp [FuncKind.fill, GoImpl.impl, GoImpl.setDefaults, RawImpl.unmarshal, h]

/-- the window variant made of an implementation of an aggregate function answers for it -/
theorem answers_asWindow {urn name desc : String} (i : RawImpl) :
    (⟨name, desc, urn, FuncKind.window.fill { i.unmarshal.setDefaults.impl with windowType := "STREAMING" }⟩ :
      Variant).Answers .window urn name .aggregate i := by
  obtain ⟨h1, h2, h3, h4, h5, h6, h7, h8, h9, h10, h11, h12, h13, h14, _⟩ :=
    answers_fill (k := .window) (urn := urn) (name := name) (desc := desc) i rfl
  exact ⟨h1, h2, h3, h4, h5, h6, h7, h8, h9, h10, h11, h12, h13, h14,
    fun _ => ⟨fun h => (by cases h), fun _ => rfl⟩⟩

theorem mem_file_declared {f : RawFile} {k : FuncKind} {d : FuncDecl} :
    (k, d) ∈ f.file.declared ↔ ∃ r, (k, r) ∈ f.declared ∧ d = r.decl := by
  simp only [ExtFile.declared, RawFile.declared, RawFile.file, List.mem_append, List.mem_map, Prod.mk.injEq]
  constructor
  · rintro ((⟨_, ⟨r, hr, rfl⟩, rfl, rfl⟩ | ⟨_, ⟨r, hr, rfl⟩, rfl, rfl⟩) | ⟨_, ⟨r, hr, rfl⟩, rfl, rfl⟩)
    · exact ⟨r, .inl (.inl ⟨r, hr, rfl, rfl⟩), rfl⟩
    · exact ⟨r, .inl (.inr ⟨r, hr, rfl, rfl⟩), rfl⟩
    · exact ⟨r, .inr ⟨r, hr, rfl, rfl⟩, rfl⟩
  · rintro ⟨r, ((⟨r', hr, rfl, rfl⟩ | ⟨r', hr, rfl, rfl⟩) | ⟨r', hr, rfl, rfl⟩), rfl⟩
    · exact .inl (.inl ⟨_, ⟨_, hr, rfl⟩, rfl, rfl⟩)
    · exact .inl (.inr ⟨_, ⟨_, hr, rfl⟩, rfl, rfl⟩)
    · exact .inr ⟨_, ⟨_, hr, rfl⟩, rfl, rfl⟩

/-- what the steps of a load put into the maps answers for what is written -/
theorem answers_of_step {f : RawFile} {k : FuncKind} {d : FuncDecl} {v : Variant}
    (hd : (k, d) ∈ f.file.steps) (hv : v ∈ d.variants k f.urn) :
    ∃ w r i, (w, r) ∈ f.declared ∧ w.ServesAs k ∧ i ∈ r.impls ∧ v.Answers k f.urn r.name w i := by
  simp only [FuncDecl.variants, List.mem_map] at hv
  obtain ⟨j, hj, rfl⟩ := hv
  simp only [ExtFile.steps, List.mem_append, List.mem_map] at hd
  rcases hd with hd | ⟨d', hd', e⟩
  · obtain ⟨r, hr, rfl⟩ := mem_file_declared.1 hd
    simp only [RawDecl.decl, List.mem_map] at hj
    obtain ⟨i, hi, rfl⟩ := hj
    exact ⟨k, r, i, hr, .inl rfl, hi, answers_fill i rfl⟩
  · cases e
    have hm : (FuncKind.aggregate, d') ∈ f.file.declared := by simp [ExtFile.declared, hd']
    obtain ⟨r, hr, rfl⟩ := mem_file_declared.1 hm
    simp only [FuncDecl.asWindow, RawDecl.decl, List.mem_map] at hj
    obtain ⟨_, ⟨i, hi, rfl⟩, rfl⟩ := hj
    exact ⟨.aggregate, r, i, hr, .inr ⟨rfl, rfl⟩, hi, answers_asWindow i⟩

/-- a variant that answers for an implementation has its compound name -/
theorem Variant.Answers.compoundName {v : Variant} {k w : FuncKind} {urn name n : String} {i : RawImpl}
    (h : v.Answers k urn name w i) (hn : v.compoundName = .ok n) :
    ∃ sig, signatureKey i.args = .ok sig ∧ n = name ++ ":" ++ sig := by
  simp only [Variant.compoundName, h.args, h.name, Res.bind_eq_ok] at hn
  obtain ⟨sig, h1, h2⟩ := hn
  cases h2
  exact ⟨sig, h1, rfl⟩

end Verif

import Verif.Model.FuncRegistry
import Verif.Spec.FuncRegistry
import Verif.Props.Collection
/-!
# C132: a function registry lists exactly the functions of the files loaded
-/

namespace Verif

namespace FuncReg

theorem holds_reachable {c : Collection} {fs : List ExtFile} (h : c.Holds fs) : c.Reachable := by
  induction h with
  | zero => exact .zero
  | @accepted c fs f c' _ hl ih => have := Collection.Reachable.load _ (some f) ih; rw [hl] at this; exact this
  | @refused c fs file c' r _ hl _ _ ih => have := Collection.Reachable.load _ file ih; rw [hl] at this; exact this

theorem rejected_same {c c' : Collection} {file : Option ExtFile} {r : Res Unit}
    (hd : ∀ f, file = some f → f.DefaultsOk) (h : c.load file = (c', r)) (hr : r ≠ .ok ()) : c' = c := by
  cases file with
  | none => cases h; rfl
  | some f =>
    by_cases hv : f.Valid c
    · obtain ⟨s, e, _⟩ := addSteps_ok f.urn f.steps ⟨c.loadTypes f, .empty⟩
        (steps_ok hv.2.2.2.1 (hd f rfl))
      rw [load_valid hv, e] at h
      cases h
      exact absurd rfl hr
    · rcases load_invalid hv with e | e <;> rw [e] at h <;> cases h <;> rfl

/-- every entry presents an implementation of a loaded file under its own identifier -/
theorem holds_entry {c : Collection} {fs : List ExtFile} (h : c.Holds fs) : ∀ k id v, (c.funcs k).get id = some v →
    v.urn = id.urn ∧ v.compoundName = .ok id.name ∧ ∃ f ∈ fs, f.Declares k v := by
  induction h with
  | zero => intro k id v h; cases k <;> cases h
  | @accepted c fs f c' _ hl ih =>
    obtain ⟨_, _, _, _, _, _, h7, _⟩ := load_ok hl
    intro k id v hv
    rcases h7 k id v hv with h | ⟨d, hd, hvd, hid, hcn⟩
    · obtain ⟨h1, h2, g, hg, h3⟩ := ih k id v h
      exact ⟨h1, h2, g, List.mem_cons_of_mem _ hg, h3⟩
    · obtain ⟨q, hq, hqk, hqn, j, hj, hpr⟩ := presents_of_step hd hvd
      exact ⟨by rw [hid]; exact hpr.1, hcn, f, List.mem_cons_self .., q, hq, hqk, j, hj, hpr⟩
  | @refused c fs file c' r _ hl hr hd ih =>
    rw [rejected_same hd hl hr]
    exact ih

/-- every implementation of a loaded file has an entry -/
theorem holds_declared {c : Collection} {fs : List ExtFile} (h : c.Holds fs) : ∀ f ∈ fs, ∀ p ∈ f.declared, ∀ i ∈ p.2.impls,
    ∀ k, p.1.ServesAs k → ∀ sig, signatureKey i.args = .ok sig →
      ((c.funcs k).get ⟨f.urn, p.2.name ++ ":" ++ sig⟩).isSome := by
  induction h with
  | zero => intro f hf; cases hf
  | @accepted c fs f c' hc hl ih =>
    obtain ⟨hv, _, _, _, _, h6, _, h8, _⟩ := load_ok hl
    intro g hg p hp i hi k hk sig hs
    rcases List.mem_cons.1 hg with rfl | hg
    · rcases hk with rfl | ⟨hk, rfl⟩
      · refine h8 p.1 p.2 (List.mem_append_left _ hp) ⟨p.2.name, p.2.description, g.urn, p.1.fill i⟩
          (List.mem_map.2 ⟨i, hi, rfl⟩) _ ?_
        rw [compoundName_mk, hs]; rfl
      · obtain ⟨k', d⟩ := p
        simp only at hk
        subst hk
        have hd : d ∈ g.aggregates := by
          simp only [ExtFile.declared, List.mem_append, List.mem_map] at hp
          rcases hp with (⟨x, _, e⟩ | ⟨x, hx, e⟩) | ⟨x, _, e⟩ <;> cases e
          exact hx
        refine h8 .window d.asWindow (List.mem_append_right _ (List.mem_map.2 ⟨d, hd, rfl⟩))
          ⟨d.name, d.description, g.urn, FuncKind.window.fill { i with windowType := "STREAMING" }⟩
          (List.mem_map.2 ⟨{ i with windowType := "STREAMING" }, List.mem_map.2 ⟨i, hi, rfl⟩, rfl⟩) _ ?_
        rw [compoundName_mk]
        show signatureKey i.args >>= _ = _
        rw [hs]; rfl
    · have hold := ih g hg p hp i hi k hk sig hs
      by_cases e : g.urn = f.urn
      · have ht := reachable_tidy (holds_reachable hc) f.urn hv.2.1
        rw [e, ht.1] at hold
        cases hold
      · rw [h6 k _ e]
        exact hold
  | @refused c fs file c' r _ hl hr hd ih =>
    rw [rejected_same hd hl hr]
    exact ih

theorem process_foldl (k : FuncKind) : ∀ (fs : List Variant) (m : GoMap String (List Variant)) (all : List (FuncKind × Variant)),
    (fs.foldl (processVariant k) (m, all)).2 = all ++ fs.map (k, ·) ∧
    ∀ n, ((fs.foldl (processVariant k) (m, all)).1.get n).getD [] = (m.get n).getD [] ++ fs.filter (fun v => v.name = n)
  | [], m, all => by simp
  | v :: fs, m, all => by
      obtain ⟨h1, h2⟩ := process_foldl k fs (m.set v.name ((m.get v.name).getD [] ++ [v])) (all ++ [(k, v)])
      rw [List.foldl_cons]
      refine ⟨?_, fun n => ?_⟩
      · show (fs.foldl (processVariant k) (m.set v.name _, all ++ [(k, v)])).2 = _
        rw [h1]; simp
      · show ((fs.foldl (processVariant k) (m.set v.name _, all ++ [(k, v)])).1.get n).getD [] = _
        rw [h2, GoMap.get_set]
        by_cases e : v.name = n
        · rw [if_pos e.symm, e, List.filter_cons_of_pos (by simpa using e)]
          simp
        · rw [if_neg (fun h => e h.symm), List.filter_cons_of_neg (by simpa using e)]

theorem getAll_eq (order : FuncKind → List (ExtId × Variant)) : (newFuncRegistry order).getAll =
    (order .scalar).map (fun p => (.scalar, p.2)) ++ (order .aggregate).map (fun p => (.aggregate, p.2)) ++
      (order .window).map (fun p => (.window, p.2)) := by
  simp only [newFuncRegistry, FuncRegistry.getAll, processVariants, (process_foldl _ _ _ _).1, getValues, List.map_map,
    List.nil_append]
  rfl

theorem mem_getAll {order : FuncKind → List (ExtId × Variant)} {k : FuncKind} {v : Variant} :
    (k, v) ∈ (newFuncRegistry order).getAll ↔ ∃ id, (id, v) ∈ order k := by
  rw [getAll_eq]
  cases k <;> simp

end FuncReg

/-- **C132 (nothing else).** Whatever is listed presents an implementation that a loaded file declares, as a function of
its kind or as a window function made of an aggregate function. -/
theorem C132_only (c : Collection) (fs : List ExtFile) (order : FuncKind → List (ExtId × Variant)) (h : c.Holds fs)
    (ho : c.RangedAs order) (k : FuncKind) (v : Variant) (hv : (k, v) ∈ (newFuncRegistry order).getAll) :
    ∃ f ∈ fs, f.Declares k v := by
  obtain ⟨id, hid⟩ := FuncReg.mem_getAll.1 hv
  have := (GoMap.get_eq_some _ _ _).2 ((ho k).mem_iff.1 hid)
  exact (FuncReg.holds_entry h k id v this).2.2

/-- **C132 (everything).** Every implementation of every loaded file is listed, under its file, name and signature, as a
function of its kind; implementations of aggregate functions as window functions, too. -/
theorem C132_every (c : Collection) (fs : List ExtFile) (order : FuncKind → List (ExtId × Variant)) (h : c.Holds fs)
    (ho : c.RangedAs order) (f : ExtFile) (hf : f ∈ fs) (p : FuncKind × FuncDecl) (hp : p ∈ f.declared) (i : Impl)
    (hi : i ∈ p.2.impls) (k : FuncKind) (hk : p.1.ServesAs k) (sig : String) (hs : signatureKey i.args = .ok sig) :
    ∃ v, (k, v) ∈ (newFuncRegistry order).getAll ∧ v.urn = f.urn ∧ v.compoundName = .ok (p.2.name ++ ":" ++ sig) := by
  have h1 := FuncReg.holds_declared h f hf p hp i hi k hk sig hs
  obtain ⟨v, hv⟩ := Option.isSome_iff_exists.1 h1
  obtain ⟨h2, h3, _⟩ := FuncReg.holds_entry h k _ v hv
  exact ⟨v, FuncReg.mem_getAll.2 ⟨_, (ho k).mem_iff.2 ((GoMap.get_eq_some _ _ _).1 hv)⟩, h2, h3⟩

/-- **C132 (once).** No kind lists two functions of one file with the same name and signature. -/
theorem C132_once (c : Collection) (fs : List ExtFile) (order : FuncKind → List (ExtId × Variant)) (h : c.Holds fs)
    (ho : c.RangedAs order) :
    ((newFuncRegistry order).getAll.map fun p => (p.1, p.2.urn, p.2.compoundName)).Nodup := by
  have key : ∀ k, ((order k).map fun p => (k, p.2.urn, p.2.compoundName)).Nodup := by
    intro k
    have hn : ((order k).map Prod.fst).Nodup := ((ho k).map _).nodup_iff.2 (c.funcs k).nodup
    have he : (order k).map (fun p => (k, p.2.urn, p.2.compoundName)) =
        ((order k).map Prod.fst).map (fun id => (k, id.urn, Res.ok id.name)) := by
      rw [List.map_map]
      refine List.map_congr_left fun p hp => ?_
      obtain ⟨h1, h2, _⟩ := FuncReg.holds_entry h k p.1 p.2 ((GoMap.get_eq_some _ _ _).2 ((ho k).mem_iff.1 hp))
      simp only [Function.comp_apply, h1, h2]
    rw [he]
    refine List.Nodup.map ?_ hn
    intro a b e
    simp only [Prod.mk.injEq, true_and, Res.ok.injEq] at e
    cases a; cases b
    simp_all
  rw [FuncReg.getAll_eq]
  simp only [List.map_append, List.map_map]
  have k1 := key .scalar
  have k2 := key .aggregate
  have k3 := key .window
  refine List.nodup_append.2 ⟨List.nodup_append.2 ⟨k1, k2, ?_⟩, k3, ?_⟩
  · intro a ha b hb
    simp only [List.mem_map, Function.comp_apply] at ha hb
    obtain ⟨x, _, rfl⟩ := ha
    obtain ⟨y, _, rfl⟩ := hb
    simp
  · intro a ha b hb
    simp only [List.mem_append, List.mem_map, Function.comp_apply] at ha hb
    obtain ⟨y, _, rfl⟩ := hb
    rcases ha with ⟨x, _, rfl⟩ | ⟨x, _, rfl⟩ <;> simp

/-- **C132 (by name).** The functions of a kind by name are the listed functions of that kind and name, in the order of
the list; none if there are none. -/
theorem C132_by_name (order : FuncKind → List (ExtId × Variant)) (k : FuncKind) (name : String) :
    (newFuncRegistry order).byName k name =
      (((newFuncRegistry order).getAll.filter fun p => p.1 = k ∧ p.2.name = name).map Prod.snd) := by
  have h1 : ∀ (j : FuncKind) (l : List (ExtId × Variant)),
      ((l.map fun p => (j, p.2)).filter fun p => p.1 = k ∧ p.2.name = name).map Prod.snd =
        if j = k then (getValues l).filter (fun v => v.name = name) else [] := by
    intro j l
    induction l with
    | nil => simp [getValues]
    | cons p l ih =>
      simp only [List.map_cons, getValues, List.filter_cons] at ih ⊢
      by_cases e : j = k
      · by_cases e' : p.2.name = name
        · simp only [e, e', and_self, decide_true, if_true, List.map_cons] at ih ⊢
          rw [ih]
        · simp only [e, e', and_false, decide_false, Bool.false_eq_true, if_false, if_true] at ih ⊢
          rw [ih]
      · simp only [e, false_and, decide_false, Bool.false_eq_true, if_false] at ih ⊢
        rw [ih]
  rw [FuncReg.getAll_eq]
  simp only [List.filter_append, List.map_append, h1]
  cases k
  · simp only [FuncRegistry.byName, newFuncRegistry, processVariants, (FuncReg.process_foldl _ _ _ _).2, reduceCtorEq,
      if_true, if_false, List.append_nil]
    rfl
  · simp only [FuncRegistry.byName, newFuncRegistry, processVariants, (FuncReg.process_foldl _ _ _ _).2, reduceCtorEq,
      if_true, if_false, List.append_nil]
    rfl
  · simp only [FuncRegistry.byName, newFuncRegistry, processVariants, (FuncReg.process_foldl _ _ _ _).2, reduceCtorEq,
      if_true, if_false, List.append_nil]
    rfl

/-- **C132 (by number of arguments).** The functions of a kind by name and number of arguments are those by name that
have as many parameters or, if variadic, allow as many arguments (for which calls that is right: C81). -/
theorem C132_by_count (order : FuncKind → List (ExtId × Variant)) (k : FuncKind) (name : String) (n : Int) (v : Variant) :
    v ∈ (newFuncRegistry order).byCount k name n ↔ (k, v) ∈ (newFuncRegistry order).getAll ∧ v.name = name ∧
      ((v.impl.args.length : Int) = n ∨
        ∃ va, v.impl.variadic = some va ∧ va.min ≤ n ∧ (va.max = 0 ∨ n ≤ va.max)) := by
  unfold FuncRegistry.byCount
  rw [List.mem_filter, C132_by_name, List.mem_map]
  have hb : (∃ a, a ∈ (newFuncRegistry order).getAll.filter (fun p => decide (p.1 = k ∧ p.2.name = name)) ∧ a.2 = v) ↔
      (k, v) ∈ (newFuncRegistry order).getAll ∧ v.name = name := by
    constructor
    · rintro ⟨⟨k', v'⟩, ha, rfl⟩
      simp only [List.mem_filter, decide_eq_true_eq] at ha
      obtain ⟨h1, rfl, h2⟩ := ha
      exact ⟨h1, h2⟩
    · rintro ⟨h1, h2⟩
      exact ⟨(k, v), by simp only [List.mem_filter, decide_eq_true_eq]; exact ⟨h1, trivial, h2⟩, rfl⟩
  rw [hb, and_assoc]
  refine and_congr_right fun _ => and_congr_right fun _ => ?_
  cases hva : v.impl.variadic with
  | none => simp
  | some va =>
    simp [Variadic.validCount]
    omega

/-- non-vacuity: the sample file, a second load of it being refused; a scalar function, two implementations of an
aggregate function and three window functions -/
example : ∃ c : Collection, c.Holds [sampleFile] ∧ c.RangedAs (fun k => (c.funcs k).entries) ∧
    ((newFuncRegistry fun k => (c.funcs k).entries).getAll.map fun p => (p.1, p.2.name)) =
      [(.scalar, "norm"), (.aggregate, "total"), (.aggregate, "total"), (.window, "rank"), (.window, "total"),
        (.window, "total")] := by
  refine ⟨(Collection.zero.load (some sampleFile)).1,
    .refused (file := some sampleFile) (r := .err) (.accepted .zero (f := sampleFile) rfl) rfl (by simp) ?_,
    fun k => List.Perm.refl _, by decide +kernel⟩
  intro f hf
  cases hf
  intro p hp
  simp only [sampleFile, ExtFile.declared, List.map_cons, List.map_nil, List.cons_append, List.nil_append,
    List.mem_cons, List.not_mem_nil, or_false] at hp
  rcases hp with rfl | rfl | rfl <;> simp

end Verif

import Verif.Model.AggText
import Verif.Props.ExprText
/-!
# Properties of the texts of aggregate functions (C140)
-/

namespace Verif

open ExprText

/-! ## C140 -/

/-- **C140.** An aggregate function can be printed if it has a declaration, all its arguments are there, and nothing in
them lacks what it needs. -/
theorem C140_prints (g : ExprFmt) (f : AggFn) (hd : f.a.declaration ≠ "") (hn : EArg.nil ∉ f.args)
    (h : ∀ e, EArg.expr e ∈ f.args → ∀ x, Expr.Within x e → x.Ready g) : ∃ s, f.string g = .ok s := by
  obtain ⟨n, hn'⟩ := name_prints (g := g) hd
  obtain ⟨as, has⟩ := args_print f.args hn (fun c hc => by
    obtain ⟨a, ha, hc⟩ := List.mem_flatMap.1 hc
    cases a with
    | expr e =>
      rw [EArg.exprs, List.mem_singleton] at hc
      subst hc
      exact h c ha
    | _ => simp [EArg.exprs] at hc)
  exact ⟨_, by rw [AggFn.string, hn', Res.ok_bind, has, Res.ok_bind]⟩

/-- **C140.** Without a declaration, or with an argument that is not there or cannot be printed, it panics or fails. -/
theorem C140_needs (g : ExprFmt) (f : AggFn) (s : Bytes) (h : f.string g = .ok s) :
    f.a.declaration ≠ "" ∧ EArg.nil ∉ f.args ∧ ∀ e, EArg.expr e ∈ f.args → ∃ t, Expr.string g e = .ok t := by
  simp only [AggFn.string, Res.bind_eq_ok] at h
  obtain ⟨n, hn, as, has, h⟩ := h
  clear h
  refine ⟨fun hd => by simp [FnAttrs.nameText, hd] at hn, ?_⟩
  generalize f.args = args at has
  clear hn
  induction args generalizing as with
  | nil => simp
  | cons a args ih =>
    cases a with
    | nil => simp [EArg.strings] at has
    | expr e =>
      simp only [EArg.strings, Res.bind_eq_ok] at has
      obtain ⟨t, ht, bs, hbs, _⟩ := has
      obtain ⟨h1, h2⟩ := ih bs hbs
      refine ⟨by simp [h1], fun x hx => ?_⟩
      rcases List.mem_cons.1 hx with hx | hx
      · cases hx; exact ⟨t, ht⟩
      · exact h2 x hx
    | type t =>
      simp only [EArg.strings, Res.bind_eq_ok] at has
      obtain ⟨bs, hbs, _⟩ := has
      obtain ⟨h1, h2⟩ := ih bs hbs
      exact ⟨by simp [h1], fun x hx => h2 x (by simpa using hx)⟩
    | enum t =>
      simp only [EArg.strings, Res.bind_eq_ok] at has
      obtain ⟨bs, hbs, _⟩ := has
      obtain ⟨h1, h2⟩ := ih bs hbs
      exact ⟨by simp [h1], fun x hx => h2 x (by simpa using hx)⟩

/-- **C140 (partial).** The text starts with the name of the function, ends with its output type, and contains the texts
of all its arguments. Missing: options, sort fields, phase and invocation (`C140_negation`). -/
theorem C140_shows_partial (g : ExprFmt) (f : AggFn) (s : Bytes) (h : f.string g = .ok s) :
    (∃ r, s = g.name f.a.declaration ++ utf8 "(" ++ r) ∧ (∃ r, s = r ++ utf8 ") => " ++ utf8 f.a.outputType.string) ∧
    (∀ e t, EArg.expr e ∈ f.args → Expr.string g e = .ok t → t <:+: s) ∧
    (∀ x ∈ f.args, ∀ b ∈ x.words, b <:+: s) := by
  have hd := (C140_needs g f s h).1
  simp only [AggFn.string, Res.bind_eq_ok] at h
  obtain ⟨n, hn, as, has, h⟩ := h
  rw [FnAttrs.nameText, if_neg hd] at hn
  cases hn
  cases h
  refine ⟨⟨_, by simp only [List.append_assoc]; rfl⟩, ⟨_, rfl⟩, fun e t he ht => ?_, fun x hx b hb => ?_⟩
  · exact inl _ (inl _ (inr _ (in_join (args_in has e
      (List.mem_flatMap.2 ⟨_, he, by rw [EArg.exprs]; exact List.mem_cons_self⟩) t ht))))
  · exact inl _ (inl _ (inr _ (in_join (args_say has x hx b hb))))

/-- C140 for all that an aggregate function is made of. -/
def C140_statement (g : ExprFmt) : Prop := ∀ (f f' : AggFn) (s : Bytes), f.string g = .ok s → f'.string g = .ok s →
  f.invocation = f'.invocation ∧ f.phase = f'.phase ∧ f.a.options.length = f'.a.options.length ∧
  f.sorts.length = f'.sorts.length

/-- **C140, negation.** The text does not depend on options, sort fields, phase and invocation, so a count of all values
reads like one of distinct values. -/
theorem C140_negation (g : ExprFmt) :
    (∀ (f : AggFn) (os : List (String × List String)) (p i : Int32) (ss : List ESort),
      AggFn.string g { f with a := { f.a with options := os }, phase := p, invocation := i, sorts := ss } =
        f.string g) ∧
    (∃ f f' : AggFn, f.invocation = 1 ∧ f'.invocation = 2 ∧ f.a = f'.a ∧ f.args = f'.args ∧
      ∃ s, f.string g = .ok s ∧ f'.string g = .ok s) ∧ ¬ C140_statement g := by
  have h2 : ∃ f f' : AggFn, f.invocation = 1 ∧ f'.invocation = 2 ∧ f.a = f'.a ∧ f.args = f'.args ∧
      ∃ s, f.string g = .ok s ∧ f'.string g = .ok s := by
    let a : FnAttrs := ⟨1, "count:any", [], .prim .i64 2 0⟩
    obtain ⟨s, hs⟩ := C140_prints g ⟨a, 3, 1, [], []⟩ (by decide) (by simp) (by simp)
    exact ⟨⟨a, 3, 1, [], []⟩, ⟨a, 3, 2, [], []⟩, rfl, rfl, rfl, rfl, s, hs, hs⟩
  refine ⟨fun _ _ _ _ _ => rfl, h2, fun hs => ?_⟩
  obtain ⟨f, f', hf, hf', _, _, s, h, h'⟩ := h2
  have := (hs f f' s h h').1
  rw [hf, hf'] at this
  exact absurd this (by decide)

/-! ### Examples -/

/-- the count of distinct values of the fourth column -/
def exAggText : AggFn :=
  ⟨⟨1, "count:any", [("overflow", ["ERROR"])], .prim .i64 2 0⟩, 3, 2,
    [.expr (.fieldRef .rootReference (.seg (.structField 3 .nil)) none), .enum "X"], []⟩

-- `C140_prints`, `C140_needs`, `C140_shows_partial`: it is printed, and the text shows the column
example (g : ExprFmt) : ∃ s, exAggText.string g = .ok s := by
  refine C140_prints g exAggText (by decide) (by simp [exAggText]) fun e he x hx => ?_
  simp only [exAggText, List.mem_cons, EArg.expr.injEq, reduceCtorEq, List.not_mem_nil, or_false] at he
  subst he
  cases hx with
  | refl => exact ⟨by simp, trivial⟩
  | part c e hc hx => simp [Expr.parts] at hc
example (g : ExprFmt) (s : Bytes) (h : exAggText.string g = .ok s) : utf8 "X" <:+: s :=
  (C140_shows_partial g exAggText s h).2.2.2 (.enum "X") (by simp [exAggText]) _ (by simp [EArg.words])

end Verif

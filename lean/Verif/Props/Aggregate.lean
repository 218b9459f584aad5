import Verif.Lemmas.Aggregate
import Verif.Props.Expr
import Verif.Props.Rel
/-!
# Properties of aggregates: C38, C39, C40, C41, C70, C71
-/

namespace Verif

/-! ## C38 -/

/-- **C38 (full statement, false).** (Up to 2^32 expressions: references are 32-bit.) -/
def C38_statement : Prop :=
  ∀ (sh : Sharing) (groups : List (List Expr)) (es : List Expr) (refs : List (List UInt32)),
    sh.Sound → groupingExprs sh groups = .ok (es, refs) → es.length ≤ 2 ^ 32 →
    List.Forall₂ (List.Forall₂ fun e (r : UInt32) =>
      ∃ x, es[r.toNat]? = some x ∧ Expr.equals sh x e = .ok true) groups refs ∧
    ∀ (i j : Nat) (x y : Expr), i ≠ j → es[i]? = some x → es[j]? = some y →
      Expr.equals sh x y ≠ .ok true

/-- **C38, partial.** Whatever the expressions: looking the references up gives, set by set and in
order, the original expression or one that compares as equal to it; only given expressions are
listed; and no expression compares as equal to a later one. Missing: equality in the other
direction, and of an expression with itself. -/
theorem C38_references_partial (sh : Sharing) (groups : List (List Expr)) (es : List Expr)
    (refs : List (List UInt32)) (h : groupingExprs sh groups = .ok (es, refs))
    (hl : es.length ≤ 2 ^ 32) :
    List.Forall₂ (List.Forall₂ (RefDenotes sh es)) groups refs ∧
    es.Sublist groups.flatten ∧
    es.Pairwise (fun a b => Expr.equals sh a b = .ok false) := by
  obtain ⟨new, rfl, h1, h2, h3⟩ := groupingLoop_spec h hl List.Pairwise.nil
  exact ⟨h3, by simpa using h1, h2⟩

/-- **C38, partial (regular expressions).** For complete expressions, in which scalar calls of one
function have one argument count (see C18), the legacy grouping sets are always decoded; looking the
references up gives expressions with the contents of the originals, and no two listed expressions
have the same contents. -/
theorem C38_contents_partial (sh : Sharing) (hs : sh.Sound) (ar : UInt32 → Nat)
    (groups : List (List Expr)) (hg : ∀ g ∈ groups, ∀ e ∈ g, e.Regular ar)
    (hl : groups.flatten.length ≤ 2 ^ 32) :
    ∃ es refs, groupingExprs sh groups = .ok (es, refs) ∧
      List.Forall₂ (List.Forall₂ fun e (r : UInt32) =>
        ∃ x, es[r.toNat]? = some x ∧ x.canon = e.canon) groups refs ∧
      es.Pairwise (fun a b => a.canon ≠ b.canon) := by
  have tot : ∀ (gs : List (List Expr)) (es : List Expr), (∀ e ∈ es, e.Regular ar) →
      (∀ g ∈ gs, ∀ e ∈ g, e.Regular ar) →
      ∃ es' refs, groupingLoop sh es gs = .ok (es', refs) := by
    intro gs
    induction gs with
    | nil => intro es _ _; exact ⟨es, [], rfl⟩
    | cons g gs ih =>
      intro es hes hg
      obtain ⟨es1, r1, h1, h2⟩ := groupRefs_total hs ar g es hes (hg g (by simp))
      obtain ⟨es2, r2, h3⟩ := ih es1 h2 (fun g' hg' => hg g' (by simp [hg']))
      exact ⟨es2, r1 :: r2, by simp only [groupingLoop, h1, Res.ok_bind, h3]⟩
  obtain ⟨es, refs, h⟩ := tot groups [] (by simp) hg
  have hsub : es.Sublist groups.flatten := by
    have : ∀ (gs : List (List Expr)) (es es' : List Expr) refs,
        groupingLoop sh es gs = .ok (es', refs) → ∃ n, es' = es ++ n ∧ n.Sublist gs.flatten := by
      have one : ∀ (g es es' : List Expr) refs, groupRefs sh es g = .ok (es', refs) →
          ∃ n, es' = es ++ n ∧ n.Sublist g := by
        intro g
        induction g with
        | nil => intro es es' refs h; cases h; exact ⟨[], by simp, List.Sublist.slnil⟩
        | cons e g ih =>
          intro es es' refs h
          simp only [groupRefs] at h
          obtain ⟨f, -, h⟩ := Res.bind_eq_ok.1 h
          cases f with
          | some i =>
            obtain ⟨⟨a, b⟩, h4, h⟩ := Res.bind_eq_ok.1 h
            cases h
            obtain ⟨n, rfl, hn⟩ := ih _ _ _ h4
            exact ⟨n, rfl, hn.cons _⟩
          | none =>
            obtain ⟨⟨a, b⟩, h4, h⟩ := Res.bind_eq_ok.1 h
            cases h
            obtain ⟨n, rfl, hn⟩ := ih _ _ _ h4
            exact ⟨e :: n, by simp, hn.cons_cons _⟩
      intro gs
      induction gs with
      | nil => intro es es' refs h; cases h; exact ⟨[], by simp, List.Sublist.slnil⟩
      | cons g gs ih =>
        intro es es' refs h
        simp only [groupingLoop] at h
        obtain ⟨⟨es3, r3⟩, h3, h⟩ := Res.bind_eq_ok.1 h
        obtain ⟨⟨es4, r4⟩, h4, h⟩ := Res.bind_eq_ok.1 h
        cases h
        obtain ⟨n, rfl, hn⟩ := ih _ _ _ h4
        obtain ⟨n', rfl, hn'⟩ := one _ _ _ _ h3
        exact ⟨n' ++ n, by simp, by rw [List.flatten_cons]; exact hn'.append hn⟩
    obtain ⟨n, rfl, hn⟩ := this _ _ _ _ h
    simpa using hn
  have hes : ∀ e ∈ es, e.Regular ar := by
    intro e he
    obtain ⟨g, hg1, he1⟩ := List.mem_flatten.1 (hsub.subset he)
    exact hg g hg1 e he1
  obtain ⟨h1, -, h3⟩ := C38_references_partial sh groups es refs h (Nat.le_trans hsub.length_le hl)
  refine ⟨es, refs, h, ?_, ?_⟩
  · have lift : ∀ (gs : List (List Expr)) rs, (∀ g ∈ gs, ∀ e ∈ g, e.Regular ar) →
        List.Forall₂ (List.Forall₂ (RefDenotes sh es)) gs rs →
        List.Forall₂ (List.Forall₂ fun e (r : UInt32) =>
          ∃ x, es[r.toNat]? = some x ∧ x.canon = e.canon) gs rs := by
      intro gs rs hreg hf
      induction hf with
      | nil => exact List.Forall₂.nil
      | @cons g rg gs rs hh _ ih =>
        refine List.Forall₂.cons ?_ (ih (fun g' hg' => hreg g' (by simp [hg'])))
        have hgr := hreg g (by simp)
        clear * - hh hgr hes hs
        induction hh with
        | nil => exact List.Forall₂.nil
        | @cons e r g rg hd _ ih =>
          refine List.Forall₂.cons ?_ (ih (fun e' he' => hgr e' (by simp [he'])))
          obtain ⟨x, hx, rfl | heq⟩ := hd
          · exact ⟨x, hx, rfl⟩
          · refine ⟨x, hx, ?_⟩
            obtain ⟨b, hb, hc⟩ := C18_equals_partial sh hs ar x e (hes x (List.mem_of_getElem? hx))
              (hgr e (by simp))
            rw [heq] at hb
            cases hb
            exact hc.1 rfl
    exact lift groups refs hg h1
  · refine List.Pairwise.imp_of_mem (fun {a b} ha hb hab => ?_) h3
    obtain ⟨r, hr, hc⟩ := C18_equals_partial sh hs ar a b (hes a ha) (hes b hb)
    rw [hab] at hr
    cases hr
    intro hcon
    exact absurd (hc.2 hcon) (by simp)

/-- a reference to column 1, and the literal 7 twice -/
def sampleGroups : List (List Expr) := [[exSeven, sampleCond], [sampleCond], []]

example : (∀ g ∈ sampleGroups, ∀ e ∈ g, e.Regular (fun _ => 0)) ∧ sampleGroups.flatten.length ≤ 2 ^ 32 := by
  refine ⟨?_, by simp [sampleGroups]⟩
  intro g hg e he
  simp only [sampleGroups, List.mem_cons, List.not_mem_nil, or_false] at hg
  rcases hg with rfl | rfl | rfl
  · simp only [List.mem_cons, List.not_mem_nil, or_false] at he
    rcases he with rfl | rfl <;>
      simp [exSeven, sampleCond, Expr.Regular, Lit.Regular, PVal.Comparable, Ty.PlanType, ERoot.Regular,
        ERef.Regular, Seg.Regular, Seg.isNil]
  · simp only [List.mem_cons, List.not_mem_nil, or_false] at he
    subst he
    simp [sampleCond, Expr.Regular, ERoot.Regular, ERef.Regular, Seg.Regular, Seg.isNil]
  · cases he

/-- **C38 is false of the code**, since comparison is not symmetric (C18): two listed expressions of
which the second compares as equal to the first. -/
theorem C38_negation : ¬ C38_statement := by
  intro h
  obtain ⟨-, h2⟩ := h noSharing [[.ifThen [] exSeven, .ifThen [] .nil]] [.ifThen [] exSeven, .ifThen [] .nil]
    [[0, 1]] noSharing_sound (by
      simp only [groupingExprs, groupingLoop, groupRefs, findExpr, C18_negation_ifThen.2, Res.ok_bind,
        List.nil_append, Bool.false_eq_true, if_false]
      rfl) (by simp)
  exact h2 1 0 _ _ (by decide) rfl rfl C18_negation_ifThen.1

/-! ## C39 -/

/-- **C39.** Up to 20 references: `AddCube` appends exactly the non-empty sub-lists, 2^n - 1 of them,
each in the original order, and for different references each only once. -/
theorem C39_cube (b : AggBuilder) (refs : List UInt32) (h : refs.length ≤ 20) :
    ∃ added, (b.addCube refs).2 = .ok () ∧
      (b.addCube refs).1 = { b with refs := b.refs ++ added } ∧
      (∀ g, g ∈ added ↔ g ≠ [] ∧ g.Sublist refs) ∧
      added.length = 2 ^ refs.length - 1 ∧
      (refs.Nodup → added.Nodup) := by
  refine ⟨cubeSets refs, ?_, ?_, fun g => mem_cubeSets, cubeSets_length refs, cubeSets_nodup⟩ <;>
    unfold AggBuilder.addCube <;> rw [if_neg (by unfold maxGroupingSize; omega)]
  rfl

example : ([3, 1, 2] : List UInt32).length ≤ 20 ∧ ([3, 1, 2] : List UInt32).Nodup ∧
    cubeSets [3, 1, 2] = [[3], [1], [3, 1], [2], [3, 2], [1, 2], [3, 1, 2]] := by decide

/-- **C39 (limit).** Above 20 references it fails and adds nothing. -/
theorem C39_limit (b : AggBuilder) (refs : List UInt32) (h : 20 < refs.length) :
    b.addCube refs = (b, .err) := by
  unfold AggBuilder.addCube
  rw [if_pos (by unfold maxGroupingSize; omega)]

example : 20 < (List.replicate 21 (0 : UInt32)).length := by decide

/-! ## C40 -/

/-- **C40.** `AddRollup` over n references appends n sets, the i-th of which is the prefix of length
n - i; nothing else changes. -/
theorem C40_rollup (b : AggBuilder) (refs : List UInt32) :
    ∃ added, b.addRollup refs = { b with refs := b.refs ++ added } ∧
      added.length = refs.length ∧
      ∀ i, i < refs.length → added[i]? = some (refs.take (refs.length - i)) :=
  ⟨_, rfl, rollupSets_length _ _, fun i hi => rollupSets_get _ _ i hi⟩

example : rollupSets [5, 6, 7] 3 = [[5, 6, 7], [5, 6], [5]] := rfl

/-! ## C41 -/

/-- **C41 (full statement, false).** -/
def C41_statement : Prop :=
  ∀ (input : Option Rel) (ms : List Measure) (ops : List AggOp) (r : Rel),
    (AggBuilder.after input ms ops).build = .ok r →
    ∃ i es refs ms', r = .aggregate {} i ms' es refs none ∧
      (∀ set ∈ refs, ∀ k ∈ set, k.toNat < es.length) ∧
      (∀ n < es.length, ∃ set ∈ refs, ∃ k ∈ set, k.toNat = n) ∧
      ∃ cols, r.recordType = .ok cols ∧ AggregateSchema es refs ms' cols

/-- **C41, partial.** After any calls on the builder, if `Build` succeeds every grouping reference
denotes an added expression, no expression is nil, and if the expressions have types and the measures
are not nil the schema consists of the grouping columns and then the measures. Missing: that every
added expression is used; nil measures and expressions without type. -/
theorem C41_build_partial (input : Option Rel) (ms : List Measure) (ops : List AggOp) (r : Rel)
    (h : (AggBuilder.after input ms ops).build = .ok r) :
    ∃ i es refs ms', r = .aggregate {} i ms' es refs none ∧
      (∀ set ∈ refs, ∀ k ∈ set, k.toNat < es.length) ∧
      (∀ e ∈ es, e.isNil = false) ∧ (ms' ≠ [] ∨ (refs ≠ [] ∧ es ≠ [])) ∧
      ((∀ e ∈ es, ∃ t, e.getType = .ok t) → (∀ m ∈ ms', m.measure ≠ none) →
        ∃ cols, r.recordType = .ok cols ∧ AggregateSchema es refs ms' cols) := by
  obtain ⟨i, hi, h1, h2, h3, rfl⟩ := build_eq_ok.1 h
  have hr : ∀ set ∈ (AggBuilder.after input ms ops).refs, ∀ k ∈ set,
      k.toNat < ((AggBuilder.after input ms ops).exprs.map (·.e)).length := by
    intro l hl k hk
    rw [List.length_map]
    exact ofNat_not_le (h3 l hl k hk)
  refine ⟨i, _, _, _, rfl, hr, ?_, ?_, fun he hm => ?_⟩
  · intro e he
    obtain ⟨x, hx, rfl⟩ := List.mem_map.1 he
    exact h2 x hx
  · rcases h1 with h1 | h1
    · exact Or.inl h1
    · exact Or.inr ⟨h1.1, by simpa using h1.2⟩
  · obtain ⟨cols, hc⟩ := aggregateColumns_total hr he hm
    refine ⟨cols, ?_, aggregateColumns_spec hc⟩
    unfold Rel.recordType
    simp only [Rel.directOutputSchema, hc, Res.ok_bind, Rel.common]
    rfl

/-- **C41 (completeness).** `Build` succeeds exactly if there is an input, there are measures or both
grouping sets and expressions, no expression is nil, and the references are in range (fewer than 2^32
expressions). -/
theorem C41_build_iff (b : AggBuilder) (hl : b.exprs.length < 2 ^ 32) :
    (∃ r, b.build = .ok r) ↔
      b.input ≠ none ∧ (b.measures ≠ [] ∨ (b.refs ≠ [] ∧ b.exprs ≠ [])) ∧
      (∀ x ∈ b.exprs, x.e.isNil = false) ∧
      (∀ set ∈ b.refs, ∀ k ∈ set, k.toNat < b.exprs.length) := by
  constructor
  · rintro ⟨r, h⟩
    obtain ⟨i, hi, h1, h2, h3, -⟩ := build_eq_ok.1 h
    exact ⟨by simp [hi], h1, h2, fun l hl k hk => ofNat_not_le (h3 l hl k hk)⟩
  · rintro ⟨hi, h1, h2, h3⟩
    obtain ⟨i, hi⟩ := Option.ne_none_iff_exists'.1 hi
    exact ⟨_, build_eq_ok.2 ⟨i, hi, h1, h2, fun l hl' k hk => lt_not_le hl (h3 l hl' k hk), rfl⟩⟩

/-- **C41 (stable references).** `AddExpression` returns a reference to the expression, keeps the
references handed out before valid, and adds the same expression only once. -/
theorem C41_addExpression (b : AggBuilder) (e : PExpr)
    (hl : b.exprs.length < 2 ^ 32) (hc : Coherent (e :: b.exprs)) :
    ∃ x, (b.addExpression e).1.exprs[(b.addExpression e).2.toNat]? = some x ∧ x.e = e.e ∧
      x.addr = e.addr ∧ b.exprs <+: (b.addExpression e).1.exprs ∧
      (b.addExpression e).1.refs = b.refs ∧
      ((∃ y ∈ b.exprs, y.addr = e.addr) → (b.addExpression e).1 = b) := by
  have hgrow : (b.addExpression e).1.exprs.length ≤ b.exprs.length + 1 := by
    unfold AggBuilder.addExpression
    split <;> simp
  obtain ⟨-, -, h3, x, hx, hxa, hcase⟩ := addExpression_spec b e (by omega)
  refine ⟨x, hx, ?_, hxa, ?_, h3, fun ⟨y, hy, hya⟩ => ?_⟩
  · rcases hcase with ⟨-, hm⟩ | ⟨-, rfl, -⟩
    · exact hc x (by simp [hm]) e (by simp) hxa
    · rfl
  · rcases hcase with ⟨h, -⟩ | ⟨h, -⟩ <;> rw [h]
    · exact List.prefix_refl _
    · exact List.prefix_append _ _
  · unfold AggBuilder.addExpression
    split
    · rfl
    · rename_i hn
      exact absurd hya (findAddr_none hn y hy)

/-- a builder call sequence: two expressions, their cube -/
def sampleOps : List AggOp :=
  [.addExpression ⟨0, sampleCond⟩, .addExpression ⟨1, exSeven⟩, .addExpression ⟨0, sampleCond⟩, .addCube [0, 1]]

example : (∃ r, (AggBuilder.after (some sampleScan) [] sampleOps).build = .ok r) ∧
    (AggBuilder.after (some sampleScan) [] sampleOps).exprs.length = 2 ∧
    (AggBuilder.after (some sampleScan) [] sampleOps).refs = [[0], [1], [0, 1]] ∧
    Coherent [⟨0, sampleCond⟩, ⟨1, exSeven⟩, ⟨0, sampleCond⟩] :=
  ⟨⟨_, rfl⟩, rfl, rfl, by unfold Coherent; simp⟩

/-- **C41 is false of the code (unused expression)**: `Build` accepts an expression that no grouping
set refers to. -/
theorem C41_negation_unused : ¬ C41_statement := by
  intro h
  obtain ⟨i, es, refs, ms, he, -, h2, -⟩ := h (some sampleScan) []
    [.addExpression ⟨0, sampleCond⟩, .addExpression ⟨1, exSeven⟩, .addGroupingSet [0]] _ rfl
  cases he
  obtain ⟨set, hs, k, hk, hk1⟩ := h2 1 (by decide)
  simp only [AggBuilder.after, AggBuilder.step, AggBuilder.addGroupingSet, List.foldl] at hs
  revert hk hk1 k
  revert set
  decide

/-- **C41 is false of the code (nil measure)**: a nil measure is accepted, and computing the schema
panics. -/
theorem C41_negation_measure : ¬ C41_statement := by
  intro h
  obtain ⟨i, es, refs, ms, -, -, -, cols, hc, -⟩ := h (some sampleScan) [⟨none, .nil⟩] [] _ rfl
  cases hc

/-! ## C70 -/

/-- **C70.** `AggregateExprs(input, measures, groups...)`, for up to 2^32 expressions: it succeeds
exactly if there is an input, a measure or a grouping expression, and no expression is nil; and the
aggregate then has this input and these measures, its references looked up give set by set and in
order the expressions given, and it lists no other expression. -/
theorem C70_aggregateExprs (input : Option Rel) (ms : List Measure) (groups : List (List PExpr))
    (hl : groups.flatten.length < 2 ^ 32) (hc : Coherent groups.flatten) :
    ((∃ r, aggregateExprs input ms groups = .ok r) ↔
      input ≠ none ∧ (ms ≠ [] ∨ groups.flatten ≠ []) ∧ ∀ p ∈ groups.flatten, p.e.isNil = false) ∧
    (∀ r, aggregateExprs input ms groups = .ok r →
      ∃ i es refs, input = some i ∧ r = .aggregate {} i ms es refs none ∧
        List.Forall₂ (List.Forall₂ fun (p : PExpr) (k : UInt32) => es[k.toNat]? = some p.e) groups refs ∧
        ∀ e ∈ es, ∃ p ∈ groups.flatten, p.e = e) := by
  obtain ⟨h1, h2, new, refs, h3, h4, h5, h6, h7⟩ :=
    addGroups_spec groups { input := input, measures := ms } (by simp at hl ⊢; omega)
  simp only [List.nil_append] at h3 h4 h6 h7
  have hden : List.Forall₂ (List.Forall₂ fun (p : PExpr) (k : UInt32) =>
      (new.map (·.e))[k.toNat]? = some p.e) groups refs := by
    have : ∀ gs rs, (∀ g ∈ gs, ∀ p ∈ g, p ∈ groups.flatten) →
        List.Forall₂ (List.Forall₂ (Points new)) gs rs →
        List.Forall₂ (List.Forall₂ fun (p : PExpr) (k : UInt32) =>
          (new.map (·.e))[k.toNat]? = some p.e) gs rs := by
      intro gs rs hgs hf
      induction hf with
      | nil => exact List.Forall₂.nil
      | @cons g rg gs rs hh _ ih =>
        refine List.Forall₂.cons ?_ (ih (fun g' hg' => hgs g' (by simp [hg'])))
        have hgr := hgs g (by simp)
        clear * - hh hgr hc h5
        induction hh with
        | nil => exact List.Forall₂.nil
        | @cons p r g rg hd _ ih =>
          refine List.Forall₂.cons ?_ (ih (fun e' he' => hgr e' (by simp [he'])))
          obtain ⟨x, hx, hxa⟩ := hd
          rw [List.getElem?_map, hx]
          simp only [Option.map_some, Option.some.injEq]
          exact hc x (h5.subset (List.mem_of_getElem? hx)) p (hgr p (by simp)) hxa
    refine this groups refs (fun g hg p hp => List.mem_flatten.2 ⟨g, hg, hp⟩) h7
  have hrange : ∀ set ∈ refs, ∀ k ∈ set, k.toNat < new.length := by
    clear * - h7
    induction h7 with
    | nil => intro s hs; cases hs
    | cons hh _ ih =>
      intro s hs
      rcases List.mem_cons.1 hs with rfl | hs
      · clear * - hh
        induction hh with
        | nil => intro k hk; cases hk
        | cons hd _ ih =>
          intro k hk
          rcases List.mem_cons.1 hk with rfl | hk
          · obtain ⟨x, hx, -⟩ := hd
            exact (List.getElem?_eq_some_iff.1 hx).1
          · exact ih k hk
      · exact ih s hs
  have hnl : new.length < 2 ^ 32 := Nat.lt_of_le_of_lt h5.length_le hl
  constructor
  · unfold aggregateExprs
    rw [C41_build_iff _ (by rw [h3]; exact hnl), h1, h2, h3, h4]
    refine and_congr_right' ?_
    constructor
    · rintro ⟨ha, hb, -⟩
      refine ⟨ha.imp id (fun h => ?_), fun p hp => ?_⟩
      · rintro he
        rw [he] at h5
        exact h.2 (List.sublist_nil.1 h5)
      · obtain ⟨y, hy, hya⟩ := h6 p hp
        rw [← hc y (h5.subset hy) p hp hya]
        exact hb y hy
    · rintro ⟨ha, hb⟩
      refine ⟨ha.imp id (fun h => ⟨?_, ?_⟩), fun x hx => hb x (h5.subset hx), hrange⟩
      · rintro rfl
        cases h7
        exact h rfl
      · rintro rfl
        obtain ⟨p, hp⟩ := List.exists_mem_of_ne_nil _ h
        obtain ⟨y, hy, -⟩ := h6 p hp
        cases hy
  · intro r hr
    obtain ⟨i, hi, -, -, -, rfl⟩ := build_eq_ok.1 hr
    rw [h1] at hi
    refine ⟨i, new.map (·.e), refs, hi, ?_, hden, ?_⟩
    · rw [h2, h3, h4]
    · intro e he
      obtain ⟨x, hx, rfl⟩ := List.mem_map.1 he
      exact ⟨x, h5.subset hx, rfl⟩

example : Coherent [⟨0, sampleCond⟩, ⟨1, exSeven⟩, ⟨0, sampleCond⟩] ∧
    ∃ r, aggregateExprs (some sampleScan) [] [[⟨0, sampleCond⟩, ⟨1, exSeven⟩], [⟨0, sampleCond⟩]] = .ok r :=
  ⟨by unfold Coherent; simp, _, rfl⟩

/-! ## C71 -/

/-- **C71.** For an input with output columns `ts`: `RootFieldRef(input, i)` gives a reference to
column `i` that has its type if there is a column `i`, and an error otherwise; the same for
`JoinedRecordFieldRef` and the columns of both inputs. -/
theorem C71_column_reference (input : Rel) (ts : List Ty) (h : input.recordType = .ok ts)
    (hc : Countable ts) (i : Int32) :
    (∀ t, ColumnAt ts i t → rootFieldRef input i =
      .ok (.fieldRef .rootReference (.seg (.structField i .nil)) (some t))) ∧
    ((∀ t, ¬ ColumnAt ts i t) → rootFieldRef input i = .err) := by
  unfold rootFieldRef
  rw [h, Res.ok_bind]
  constructor
  · intro t ht
    exact (columnRef_spec hc _).2 ⟨t, ht, rfl⟩
  · intro hno
    exact columnRef_err hc hno

/-- **C71 (both inputs of a join).** -/
theorem C71_joined_reference (l r : Rel) (ls rs : List Ty) (hl : l.recordType = .ok ls)
    (hr : r.recordType = .ok rs) (hc : Countable (ls ++ rs)) (i : Int32) :
    (∀ t, ColumnAt (ls ++ rs) i t → joinedRecordFieldRef l r i =
      .ok (.fieldRef .rootReference (.seg (.structField i .nil)) (some t))) ∧
    ((∀ t, ¬ ColumnAt (ls ++ rs) i t) → joinedRecordFieldRef l r i = .err) := by
  unfold joinedRecordFieldRef
  rw [hl, hr, Res.ok_bind, Res.ok_bind]
  constructor
  · intro t ht
    exact (columnRef_spec hc _).2 ⟨t, ht, rfl⟩
  · intro hno
    exact columnRef_err hc hno

example : sampleScan.recordType = .ok [.prim .i32 2 0, .prim .boolean 2 0] ∧
    ColumnAt [.prim .i32 2 0, .prim .boolean 2 0] 1 (.prim .boolean 2 0) ∧
    rootFieldRef sampleScan 1 = .ok sampleCond ∧ rootFieldRef sampleScan 2 = .err :=
  ⟨rfl, ⟨by decide, rfl⟩, rfl, rfl⟩

/-- **C71 (grouping by columns).** For an input with output columns `ts` and at least one column
number: `AggregateColumns` succeeds exactly if all numbers are columns of the input, and the aggregate
then has the input and measures given, one grouping expression per column number, the reference to
that column, and one grouping set that refers to all of them in order. -/
theorem C71_aggregateColumns (input : Rel) (ts : List Ty) (h : input.recordType = .ok ts)
    (hc : Countable ts) (ms : List Measure) (cols : List Int32) (hne : cols ≠ [])
    (hl : cols.length < 2 ^ 32) :
    ((∃ r, aggregateByColumns (some input) ms cols = .ok r) ↔ ∀ c ∈ cols, InBounds ts.length c) ∧
    (∀ r, aggregateByColumns (some input) ms cols = .ok r →
      ∃ es refs, r = .aggregate {} input ms es [refs] none ∧
        List.Forall₂ (fun c e => ∃ t, ColumnAt ts c t ∧
          e = .fieldRef .rootReference (.seg (.structField c .nil)) (some t)) cols es ∧
        refs.map UInt32.toNat = List.range es.length) := by
  have hroot : ∀ c e, rootFieldRef input c = .ok e ↔ ∃ t, ColumnAt ts c t ∧
      e = .fieldRef .rootReference (.seg (.structField c .nil)) (some t) := by
    intro c e
    unfold rootFieldRef
    rw [h, Res.ok_bind]
    exact columnRef_spec hc e
  have hlen : 0 < cols.length := List.length_pos_iff.2 hne
  have hcol : ∀ c, InBounds ts.length c ↔ ∃ t, ColumnAt ts c t := by
    intro c
    unfold InBounds ColumnAt
    constructor
    · rintro ⟨h0, h1⟩
      exact ⟨ts[c.toInt.toNat]'(by omega), h0, List.getElem?_eq_getElem _⟩
    · rintro ⟨t, h0, ht⟩
      have := (List.getElem?_eq_some_iff.1 ht).1
      exact ⟨h0, by omega⟩
  unfold aggregateByColumns
  rw [if_pos hlen]
  simp only
  have hsound : ∀ b refs, addColumns input { input := some input, measures := ms } 0 cols = .ok (b, refs) →
      ∃ es : List Expr, (b.addGroupingSet refs).build = .ok (.aggregate {} input ms es [refs] none) ∧
        List.Forall₂ (fun c e => ∃ t, ColumnAt ts c t ∧
          e = .fieldRef .rootReference (.seg (.structField c .nil)) (some t)) cols es ∧
        refs.map UInt32.toNat = List.range es.length := by
    intro b refs hb
    obtain ⟨new, e1, e2, e3, e4, e5, e6⟩ := addColumns_spec cols _ 0 b refs rfl (by simp) hb
    simp only [List.nil_append] at e1 e2 e3 e4
    have hnl : new.length = cols.length := (List.Forall₂.length_eq e6).symm
    have hrefs : refs.map UInt32.toNat = List.range cols.length := by
      rw [e5, List.map_map, List.range_eq_range']
      conv_rhs => rw [← List.map_id (List.range' 0 cols.length)]
      refine List.map_congr_left (fun k hk => ?_)
      have := (List.mem_range'_1.1 hk).2
      simp only [Function.comp_apply, id_eq]
      rw [UInt32.toNat_ofNat_of_lt' (by simp [UInt32.size]; omega)]
    refine ⟨new.map (·.e), ?_, ?_, by rw [hrefs, List.length_map, hnl]⟩
    · rw [build_eq_ok]
      simp only [AggBuilder.addGroupingSet, e1, e2, e3, e4, List.nil_append]
      refine ⟨input, rfl, Or.inr ⟨by simp, ?_⟩, ?_, ?_, rfl⟩
      · rintro rfl
        simp at hnl
        omega
      · intro x hx
        have : ∃ c, rootFieldRef input c = .ok x.e := by
          clear * - e6 hx
          induction e6 with
          | nil => cases hx
          | cons hd _ ih =>
            rcases List.mem_cons.1 hx with rfl | hx
            · exact ⟨_, hd⟩
            · exact ih hx
        obtain ⟨c, hc'⟩ := this
        obtain ⟨t, -, he⟩ := (hroot c _).1 hc'
        rw [he]
        rfl
      · intro l hl' k hk
        rw [List.mem_singleton.1 hl'] at hk
        have : k.toNat ∈ refs.map UInt32.toNat := List.mem_map.2 ⟨k, hk, rfl⟩
        rw [hrefs, List.mem_range] at this
        exact lt_not_le (by omega) (by omega)
    · rw [List.forall₂_map_right_iff]
      exact List.Forall₂.imp (fun c p hp => (hroot c p.e).1 hp) e6
  constructor
  · constructor
    · rintro ⟨r, hr⟩
      obtain ⟨⟨b, refs⟩, hb, -⟩ := Res.bind_eq_ok.1 hr
      obtain ⟨es, -, hf, -⟩ := hsound b refs hb
      intro c hcm
      rw [hcol]
      clear * - hf hcm
      induction hf with
      | nil => cases hcm
      | cons hd _ ih =>
        rcases List.mem_cons.1 hcm with rfl | hcm
        · obtain ⟨t, ht, -⟩ := hd
          exact ⟨t, ht⟩
        · exact ih hcm
    · intro hb
      obtain ⟨⟨b, refs⟩, hp⟩ := addColumns_total (input := input) cols (fun c hcm => by
        obtain ⟨t, ht⟩ := (hcol c).1 (hb c hcm)
        exact ⟨_, (hroot c _).2 ⟨t, ht, rfl⟩⟩) { input := some input, measures := ms } 0
      obtain ⟨es, he, -⟩ := hsound b refs hp
      exact ⟨_, by rw [hp, Res.ok_bind]; exact he⟩
  · intro r hr
    obtain ⟨⟨b, refs⟩, hb, hr⟩ := Res.bind_eq_ok.1 hr
    obtain ⟨es, he, h1, h2⟩ := hsound b refs hb
    have : (b.addGroupingSet refs).build = .ok r := hr
    rw [he] at this
    cases this
    exact ⟨es, refs, rfl, h1, h2⟩

example : (∀ c ∈ [(1 : Int32), 0, 1], InBounds 2 c) ∧
    ∃ r, aggregateByColumns (some sampleScan) [] [1, 0, 1] = .ok r :=
  ⟨by unfold InBounds; decide, _, rfl⟩

end Verif

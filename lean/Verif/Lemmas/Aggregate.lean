import Verif.Spec.Aggregate
import Verif.Lemmas.Rel
import Verif.Lemmas.Expr
import Mathlib.Data.List.Nodup
/-!
# Lemmas about grouping sets
-/

namespace Verif

/-! ## Cube -/

theorem bit_ne_zero {k b : Nat} : k &&& (1 <<< b) ≠ 0 ↔ k.testBit b = true := by
  rw [Nat.one_shiftLeft]
  constructor
  · intro h
    obtain ⟨i, hi⟩ := Nat.exists_testBit_of_ne_zero h
    rw [Nat.testBit_and, Nat.testBit_two_pow] at hi
    simp only [Bool.and_eq_true, decide_eq_true_eq] at hi
    rw [hi.2]
    exact hi.1
  · intro h hz
    have := congrArg (fun x => Nat.testBit x b) hz
    simp [Nat.testBit_and, h] at this

theorem extractGroup_cons (k b : Nat) (r : UInt32) (rs : List UInt32) :
    extractGroup k b (r :: rs) =
      if k.testBit b = true then r :: extractGroup k (b + 1) rs else extractGroup k (b + 1) rs := by
  simp only [extractGroup, bit_ne_zero]

theorem extractGroup_sublist (k : Nat) (rs : List UInt32) : ∀ b, (extractGroup k b rs).Sublist rs := by
  induction rs with
  | nil => intro b; exact List.Sublist.slnil
  | cons r rs ih =>
    intro b
    rw [extractGroup_cons]
    split
    · exact (ih _).cons_cons r
    · exact (ih _).cons r

theorem mem_extractGroup {k : Nat} {rs : List UInt32} (hn : rs.Nodup) : ∀ {b i : Nat} {x : UInt32},
    rs[i]? = some x → (x ∈ extractGroup k b rs ↔ k.testBit (b + i) = true) := by
  induction rs with
  | nil => intro b i x h; simp at h
  | cons r rs ih =>
    intro b i x h
    obtain ⟨hr, hn⟩ := List.nodup_cons.1 hn
    rw [extractGroup_cons]
    cases i with
    | zero =>
      simp only [List.getElem?_cons_zero, Option.some.injEq] at h
      subst h
      have : r ∉ extractGroup k (b + 1) rs := fun hm => hr ((extractGroup_sublist k rs _).subset hm)
      split <;> simp_all
    | succ i =>
      simp only [List.getElem?_cons_succ] at h
      have hne : x ≠ r := by
        rintro rfl
        exact hr (List.mem_of_getElem? h)
      have := ih hn (b := b + 1) h
      rw [show b + (i + 1) = b + 1 + i by omega, ← this]
      split <;> simp [hne]

theorem extractGroup_ne_nil {k : Nat} {rs : List UInt32} : ∀ {b i : Nat}, i < rs.length →
    k.testBit (b + i) = true → extractGroup k b rs ≠ [] := by
  induction rs with
  | nil => intro b i h; simp at h
  | cons r rs ih =>
    intro b i h ht
    rw [extractGroup_cons]
    split
    · simp
    · rename_i hb
      cases i with
      | zero => exact absurd ht hb
      | succ i =>
        exact ih (i := i) (by simpa using h) (by rw [show b + 1 + i = b + (i + 1) by omega]; exact ht)

theorem extractGroup_surj {g rs : List UInt32} (h : g.Sublist rs) :
    ∃ k, k < 2 ^ rs.length ∧ ∀ K b, (∀ i, i < rs.length → K.testBit (b + i) = k.testBit i) →
      extractGroup K b rs = g := by
  induction h with
  | slnil => exact ⟨0, by simp, fun _ _ _ => rfl⟩
  | @cons g rs r _ ih =>
    obtain ⟨k, hk, hK⟩ := ih
    refine ⟨2 * k, by simp [Nat.pow_succ]; omega, fun K b h => ?_⟩
    have h0 := h 0 (by simp)
    rw [extractGroup_cons, if_neg (by rw [show b = b + 0 by omega, h0]; simp)]
    refine hK K (b + 1) (fun i hi => ?_)
    have := h (i + 1) (by simpa using hi)
    rw [show b + 1 + i = b + (i + 1) by omega, this, Nat.testBit_succ]
    simp
  | @cons_cons g rs r _ ih =>
    obtain ⟨k, hk, hK⟩ := ih
    refine ⟨2 * k + 1, by simp [Nat.pow_succ]; omega, fun K b h => ?_⟩
    have h0 := h 0 (by simp)
    rw [extractGroup_cons, if_pos (by rw [show b = b + 0 by omega, h0]; simp)]
    rw [hK K (b + 1) (fun i hi => ?_)]
    have := h (i + 1) (by simpa using hi)
    rw [show b + 1 + i = b + (i + 1) by omega, this, Nat.testBit_succ]
    congr 1
    omega

/-- The grouping sets added by a cube. -/
def cubeSets (refs : List UInt32) : List (List UInt32) :=
  (List.range' 1 ((1 <<< refs.length) - 1)).map (fun k => extractGroup k 0 refs)

theorem mem_range_cube {n k : Nat} : k ∈ List.range' 1 ((1 <<< n) - 1) ↔ 1 ≤ k ∧ k < 2 ^ n := by
  rw [List.mem_range'_1, Nat.one_shiftLeft]
  have := Nat.one_le_two_pow (n := n)
  omega

theorem mem_cubeSets {refs g : List UInt32} : g ∈ cubeSets refs ↔ g ≠ [] ∧ g.Sublist refs := by
  unfold cubeSets
  rw [List.mem_map]
  constructor
  · rintro ⟨k, hk, rfl⟩
    obtain ⟨h1, h2⟩ := mem_range_cube.1 hk
    refine ⟨?_, extractGroup_sublist _ _ _⟩
    obtain ⟨i, hi⟩ := Nat.exists_testBit_of_ne_zero (x := k) (by omega)
    have hlt : i < refs.length := by
      by_contra hc
      have : k < 2 ^ i := Nat.lt_of_lt_of_le h2 (Nat.pow_le_pow_right (by omega) (by omega))
      rw [Nat.testBit_lt_two_pow this] at hi
      cases hi
    exact extractGroup_ne_nil hlt (by rwa [Nat.zero_add])
  · rintro ⟨hne, hs⟩
    obtain ⟨k, hk, hK⟩ := extractGroup_surj hs
    have he := hK k 0 (fun i _ => by rw [Nat.zero_add])
    refine ⟨k, mem_range_cube.2 ⟨?_, hk⟩, he⟩
    rcases Nat.eq_zero_or_pos k with rfl | h
    · exfalso
      apply hne
      rw [← he]
      clear * -
      have : ∀ (rs : List UInt32) b, extractGroup 0 b rs = [] := by
        intro rs
        induction rs with
        | nil => intro b; rfl
        | cons r rs ih => intro b; rw [extractGroup_cons]; simp [ih]
      exact this _ _
    · exact h

theorem cubeSets_nodup {refs : List UInt32} (hn : refs.Nodup) : (cubeSets refs).Nodup := by
  unfold cubeSets
  refine List.Nodup.map_on ?_ (List.nodup_range')
  intro a ha b hb h
  obtain ⟨-, ha⟩ := mem_range_cube.1 ha
  obtain ⟨-, hb⟩ := mem_range_cube.1 hb
  apply Nat.eq_of_testBit_eq
  intro i
  by_cases hi : i < refs.length
  · have hg := List.getElem?_eq_getElem hi
    have h1 := mem_extractGroup (k := a) hn (b := 0) hg
    have h2 := mem_extractGroup (k := b) hn (b := 0) hg
    rw [h, h2, Nat.zero_add] at h1
    exact (Bool.eq_iff_iff.2 h1).symm
  · have hp : 2 ^ refs.length ≤ 2 ^ i := Nat.pow_le_pow_right (by omega) (by omega)
    rw [Nat.testBit_lt_two_pow (Nat.lt_of_lt_of_le ha hp),
      Nat.testBit_lt_two_pow (Nat.lt_of_lt_of_le hb hp)]

theorem cubeSets_length (refs : List UInt32) : (cubeSets refs).length = 2 ^ refs.length - 1 := by
  simp [cubeSets, Nat.one_shiftLeft]

/-! ## Rollup -/

theorem rollupSets_length (refs : List UInt32) (n : Nat) : (rollupSets refs n).length = n := by
  induction n with
  | zero => rfl
  | succ n ih => simp [rollupSets, ih]

theorem rollupSets_get (refs : List UInt32) (n i : Nat) (h : i < n) :
    (rollupSets refs n)[i]? = some (refs.take (n - i)) := by
  induction n generalizing i with
  | zero => omega
  | succ n ih =>
    cases i with
    | zero => rfl
    | succ i =>
      simp only [rollupSets, List.getElem?_cons_succ]
      rw [ih i (by omega), show n + 1 - (i + 1) = n - i by omega]

/-! ## Legacy grouping sets -/

theorem findExpr_some {sh : Sharing} {e : Expr} {xs : List Expr} {k : Nat} {i : UInt32}
    (h : findExpr sh e k xs = .ok (some i)) :
    ∃ j x, xs[j]? = some x ∧ i = UInt32.ofNat (k + j) ∧ Expr.equals sh x e = .ok true := by
  induction xs generalizing k with
  | nil => cases h
  | cons x xs ih =>
    simp only [findExpr] at h
    obtain ⟨b, hb, h⟩ := Res.bind_eq_ok.1 h
    cases b with
    | true =>
      simp only [if_true, Res.ok.injEq, Option.some.injEq] at h
      exact ⟨0, x, rfl, h.symm, hb⟩
    | false =>
      obtain ⟨j, y, h1, h2, h3⟩ := ih h
      exact ⟨j + 1, y, h1, by rw [h2]; congr 1; omega, h3⟩

theorem findExpr_none {sh : Sharing} {e : Expr} {xs : List Expr} {k : Nat}
    (h : findExpr sh e k xs = .ok none) : ∀ x ∈ xs, Expr.equals sh x e = .ok false := by
  induction xs generalizing k with
  | nil => intro x hx; cases hx
  | cons x xs ih =>
    simp only [findExpr] at h
    obtain ⟨b, hb, h⟩ := Res.bind_eq_ok.1 h
    cases b with
    | true => cases h
    | false =>
      intro y hy
      rcases List.mem_cons.1 hy with rfl | hy
      · exact hb
      · exact ih h y hy

theorem RefDenotes.mono {sh : Sharing} {es : List Expr} {e : Expr} {r : UInt32} (h : RefDenotes sh es e r)
    (es' : List Expr) : RefDenotes sh (es ++ es') e r := by
  obtain ⟨x, hx, h⟩ := h
  exact ⟨x, by rw [List.getElem?_append_left (List.getElem?_eq_some_iff.1 hx).1, hx], h⟩

theorem groupRefs_spec {sh : Sharing} {group : List Expr} : ∀ {es es' : List Expr} {refs : List UInt32},
    groupRefs sh es group = .ok (es', refs) → es'.length ≤ 2 ^ 32 →
    es.Pairwise (fun a b => Expr.equals sh a b = .ok false) →
    ∃ new, es' = es ++ new ∧ new.Sublist group ∧
      es'.Pairwise (fun a b => Expr.equals sh a b = .ok false) ∧
      List.Forall₂ (RefDenotes sh es') group refs := by
  induction group with
  | nil =>
    intro es es' refs h _ hp
    cases h
    exact ⟨[], by simp, List.Sublist.slnil, hp, List.Forall₂.nil⟩
  | cons e group ih =>
    intro es es' refs h hl hp
    simp only [groupRefs] at h
    obtain ⟨found, hf, h⟩ := Res.bind_eq_ok.1 h
    cases found with
    | some i =>
      obtain ⟨⟨es2, rs⟩, h1, h⟩ := Res.bind_eq_ok.1 h
      cases h
      obtain ⟨new, rfl, h2, h3, h4⟩ := ih h1 hl hp
      refine ⟨new, rfl, h2.cons _, h3, List.Forall₂.cons ?_ h4⟩
      obtain ⟨j, x, hj, hi, hx⟩ := findExpr_some hf
      have hjl := (List.getElem?_eq_some_iff.1 hj).1
      refine RefDenotes.mono (es := es) ⟨x, ?_, Or.inr hx⟩ new
      rw [hi, Nat.zero_add, UInt32.toNat_ofNat_of_lt' (by simp at hl; simp [UInt32.size]; omega), hj]
    | none =>
      obtain ⟨⟨es2, rs⟩, h1, h⟩ := Res.bind_eq_ok.1 h
      cases h
      have hp' : (es ++ [e]).Pairwise (fun a b => Expr.equals sh a b = .ok false) := by
        rw [List.pairwise_append]
        refine ⟨hp, List.pairwise_singleton _ _, fun a ha b hb => ?_⟩
        rw [List.mem_singleton.1 hb]
        exact findExpr_none hf a ha
      obtain ⟨new, rfl, h2, h3, h4⟩ := ih h1 hl hp'
      refine ⟨e :: new, by simp, h2.cons_cons _, h3, List.Forall₂.cons ?_ h4⟩
      refine RefDenotes.mono (es := es ++ [e]) ⟨e, ?_, Or.inl rfl⟩ new
      rw [UInt32.toNat_ofNat_of_lt' (by simp at hl; simp [UInt32.size]; omega)]
      simp

theorem groupRefs_prefix {sh : Sharing} {g : List Expr} : ∀ {es es' : List Expr} {r : List UInt32},
    groupRefs sh es g = .ok (es', r) → ∃ n, es' = es ++ n := by
  induction g with
  | nil => intro es es' r h; cases h; exact ⟨[], by simp⟩
  | cons e g ih =>
    intro es es' r h
    simp only [groupRefs] at h
    obtain ⟨f, -, h⟩ := Res.bind_eq_ok.1 h
    cases f with
    | some i =>
      obtain ⟨⟨a, b⟩, h4, h⟩ := Res.bind_eq_ok.1 h
      cases h
      exact ih h4
    | none =>
      obtain ⟨⟨a, b⟩, h4, h⟩ := Res.bind_eq_ok.1 h
      cases h
      obtain ⟨n, rfl⟩ := ih h4
      exact ⟨e :: n, by simp⟩

theorem groupingLoop_prefix {sh : Sharing} {gs : List (List Expr)} : ∀ {es es' : List Expr}
    {r : List (List UInt32)}, groupingLoop sh es gs = .ok (es', r) → ∃ n, es' = es ++ n := by
  induction gs with
  | nil => intro es es' r h; cases h; exact ⟨[], by simp⟩
  | cons g gs ih =>
    intro es es' r h
    simp only [groupingLoop] at h
    obtain ⟨⟨es3, r3⟩, h3, h⟩ := Res.bind_eq_ok.1 h
    obtain ⟨⟨es4, r4⟩, h4, h⟩ := Res.bind_eq_ok.1 h
    cases h
    obtain ⟨n, rfl⟩ := ih h4
    obtain ⟨n', rfl⟩ := groupRefs_prefix h3
    exact ⟨n' ++ n, by simp⟩

theorem groupingLoop_spec {sh : Sharing} {groups : List (List Expr)} : ∀ {es es' : List Expr}
    {refs : List (List UInt32)}, groupingLoop sh es groups = .ok (es', refs) →
    es'.length ≤ 2 ^ 32 → es.Pairwise (fun a b => Expr.equals sh a b = .ok false) →
    ∃ new, es' = es ++ new ∧ new.Sublist groups.flatten ∧
      es'.Pairwise (fun a b => Expr.equals sh a b = .ok false) ∧
      List.Forall₂ (List.Forall₂ (RefDenotes sh es')) groups refs := by
  induction groups with
  | nil =>
    intro es es' refs h _ hp
    cases h
    exact ⟨[], by simp, List.Sublist.slnil, hp, List.Forall₂.nil⟩
  | cons g gs ih =>
    intro es es' refs h hl hp
    simp only [groupingLoop] at h
    obtain ⟨⟨es1, r1⟩, h1, h⟩ := Res.bind_eq_ok.1 h
    obtain ⟨⟨es2, rs⟩, h2, h⟩ := Res.bind_eq_ok.1 h
    cases h
    obtain ⟨n, hn⟩ := groupingLoop_prefix h2
    obtain ⟨new1, rfl, s1, p1, f1⟩ := groupRefs_spec h1 (by subst hn; simp at hl ⊢; omega) hp
    obtain ⟨new2, rfl, s2, p2, f2⟩ := ih h2 hl p1
    refine ⟨new1 ++ new2, by simp, ?_, p2, List.Forall₂.cons ?_ f2⟩
    · rw [List.flatten_cons]
      exact s1.append s2
    · exact List.Forall₂.imp (fun _ _ h => h.mono _) f1

theorem groupRefs_total {sh : Sharing} (hs : sh.Sound) (ar : UInt32 → Nat) : ∀ (g es : List Expr),
    (∀ e ∈ es, e.Regular ar) → (∀ e ∈ g, e.Regular ar) →
    ∃ es' refs, groupRefs sh es g = .ok (es', refs) ∧ ∀ e ∈ es', e.Regular ar := by
  intro g
  induction g with
  | nil => intro es hes _; exact ⟨es, [], rfl, hes⟩
  | cons e g ih =>
    intro es hes hg
    have hfind : ∀ (xs : List Expr) k, (∀ x ∈ xs, x.Regular ar) → ∃ f, findExpr sh e k xs = .ok f := by
      intro xs
      induction xs with
      | nil => intro k _; exact ⟨none, rfl⟩
      | cons x xs ih' =>
        intro k hx
        obtain ⟨r, hr, -⟩ := expr_equals_spec hs x e (hx x (by simp)) (.inr (hg e (by simp)))
        simp only [findExpr, hr, Res.ok_bind]
        cases r with
        | true => exact ⟨_, rfl⟩
        | false => exact ih' (k + 1) (fun y hy => hx y (by simp [hy]))
    obtain ⟨f, hf⟩ := hfind es 0 hes
    simp only [groupRefs, hf, Res.ok_bind]
    cases f with
    | some i =>
      obtain ⟨es', refs, h1, h2⟩ := ih es hes (fun y hy => hg y (by simp [hy]))
      exact ⟨es', i :: refs, by simp only [h1, Res.ok_bind], h2⟩
    | none =>
      obtain ⟨es', refs, h1, h2⟩ := ih (es ++ [e]) (by
        intro y hy
        rcases List.mem_append.1 hy with hy | hy
        · exact hes y hy
        · rw [List.mem_singleton.1 hy]; exact hg e (by simp)) (fun y hy => hg y (by simp [hy]))
      exact ⟨es', _ :: refs, by simp only [h1, Res.ok_bind]; rfl, h2⟩

/-! ## The builder -/

theorem findAddr_some {a : Nat} {xs : List PExpr} {k : Nat} {i : UInt32}
    (h : findAddr a k xs = some i) :
    ∃ j x, xs[j]? = some x ∧ i = UInt32.ofNat (k + j) ∧ x.addr = a := by
  induction xs generalizing k with
  | nil => cases h
  | cons x xs ih =>
    simp only [findAddr] at h
    split at h
    · rename_i hx
      cases h
      exact ⟨0, x, rfl, rfl, hx⟩
    · obtain ⟨j, y, h1, h2, h3⟩ := ih h
      exact ⟨j + 1, y, h1, by rw [h2]; congr 1; omega, h3⟩

theorem findAddr_none {a : Nat} {xs : List PExpr} {k : Nat}
    (h : findAddr a k xs = none) : ∀ x ∈ xs, x.addr ≠ a := by
  induction xs generalizing k with
  | nil => intro x hx; cases hx
  | cons x xs ih =>
    simp only [findAddr] at h
    split at h
    · cases h
    · rename_i hx
      intro y hy
      rcases List.mem_cons.1 hy with rfl | hy
      · exact hx
      · exact ih h y hy

theorem addExpression_spec (b : AggBuilder) (e : PExpr)
    (hl : (b.addExpression e).1.exprs.length ≤ 2 ^ 32) :
    (b.addExpression e).1.input = b.input ∧ (b.addExpression e).1.measures = b.measures ∧
    (b.addExpression e).1.refs = b.refs ∧
    ∃ x, (b.addExpression e).1.exprs[(b.addExpression e).2.toNat]? = some x ∧ x.addr = e.addr ∧
      (((b.addExpression e).1.exprs = b.exprs ∧ x ∈ b.exprs) ∨
       ((b.addExpression e).1.exprs = b.exprs ++ [e] ∧ x = e ∧ ∀ y ∈ b.exprs, y.addr ≠ e.addr)) := by
  unfold AggBuilder.addExpression at *
  split at hl
  · rename_i i hi
    obtain ⟨j, x, h1, h2, h3⟩ := findAddr_some hi
    have hj := (List.getElem?_eq_some_iff.1 h1).1
    refine ⟨rfl, rfl, rfl, x, ?_, h3, Or.inl ⟨rfl, List.mem_of_getElem? h1⟩⟩
    rw [h2, Nat.zero_add]
    simp only
    rw [UInt32.toNat_ofNat_of_lt' (by simp only at hl; simp [UInt32.size]; omega), h1]
  · rename_i hi
    refine ⟨rfl, rfl, rfl, e, ?_, rfl, Or.inr ⟨rfl, rfl, findAddr_none hi⟩⟩
    simp only
    rw [UInt32.toNat_ofNat_of_lt' (by simp at hl; simp [UInt32.size]; omega)]
    simp

theorem build_eq_ok {b : AggBuilder} {r : Rel} : b.build = .ok r ↔
    ∃ i, b.input = some i ∧ (b.measures ≠ [] ∨ (b.refs ≠ [] ∧ b.exprs ≠ [])) ∧
      (∀ x ∈ b.exprs, x.e.isNil = false) ∧
      (∀ l ∈ b.refs, ∀ k ∈ l, ¬ UInt32.ofNat b.exprs.length ≤ k) ∧
      r = .aggregate {} i b.measures (b.exprs.map (·.e)) b.refs none := by
  unfold AggBuilder.build
  cases hi : b.input with
  | none => simp [AggBuilder.validate, hi]
  | some i =>
    by_cases hv : b.validate = true
    · rw [if_pos hv]
      simp only [AggBuilder.validate, hi, Bool.and_eq_true, Bool.not_eq_true', decide_eq_false_iff_not,
        List.any_eq_false, List.length_eq_zero_iff, decide_eq_true_eq, Bool.not_eq_true,
        List.any_eq_true, not_exists, not_and] at hv
      constructor
      · intro h
        cases h
        refine ⟨i, rfl, ?_, ?_, ?_, rfl⟩
        · by_cases hm : b.measures = []
          · exact Or.inr ⟨hv.1.1.1.2 hm, hv.1.1.2 hm⟩
          · exact Or.inl hm
        · exact hv.1.2
        · exact hv.2
      · rintro ⟨_, h, -, -, -, rfl⟩
        cases h
        rfl
    · rw [if_neg hv]
      constructor
      · intro h; cases h
      · rintro ⟨_, h, h1, h2, h3, rfl⟩
        exfalso
        apply hv
        simp only [AggBuilder.validate, hi, Bool.and_eq_true, Bool.not_eq_true', decide_eq_false_iff_not,
          List.any_eq_false, List.length_eq_zero_iff, decide_eq_true_eq, Bool.not_eq_true,
          List.any_eq_true, not_exists, not_and]
        refine ⟨⟨⟨⟨rfl, fun hm => ?_⟩, fun hm => ?_⟩, h2⟩, h3⟩
        · rcases h1 with h1 | h1
          · exact absurd hm h1
          · exact h1.1
        · rcases h1 with h1 | h1
          · exact absurd hm h1
          · exact h1.2

theorem ofNat_not_le {n : Nat} {k : UInt32} (h : ¬ UInt32.ofNat n ≤ k) : k.toNat < n := by
  have h := UInt32.not_le.1 h
  rw [UInt32.lt_iff_toNat_lt, UInt32.toNat_ofNat'] at h
  exact Nat.lt_of_lt_of_le h (Nat.mod_le _ _)

theorem lt_not_le {n : Nat} {k : UInt32} (hn : n < 2 ^ 32) (h : k.toNat < n) :
    ¬ UInt32.ofNat n ≤ k := by
  rw [UInt32.not_le, UInt32.lt_iff_toNat_lt, UInt32.toNat_ofNat', Nat.mod_eq_of_lt hn]
  exact h

theorem mapL_forall₂ {f : α → Res β} {xs : List α} {ys : List β} :
    Res.mapL f xs = .ok ys ↔ List.Forall₂ (fun x y => f x = .ok y) xs ys := by
  induction xs generalizing ys with
  | nil => simp [eq_comm]
  | cons x xs ih =>
    rw [Res.mapL_cons, Res.bind_eq_ok, List.forall₂_cons_left_iff]
    constructor
    · rintro ⟨y, hy, h⟩
      obtain ⟨zs, hz, h⟩ := Res.bind_eq_ok.1 h
      cases h
      exact ⟨y, zs, hy, ih.1 hz, rfl⟩
    · rintro ⟨y, zs, hy, hz, rfl⟩
      exact ⟨y, hy, by rw [ih.2 hz]; rfl⟩

theorem forall₂_flatten {R : α → β → Prop} {xs : List (List α)} {ys : List (List β)}
    (h : List.Forall₂ (List.Forall₂ R) xs ys) : List.Forall₂ R xs.flatten ys.flatten := by
  induction h with
  | nil => exact List.Forall₂.nil
  | cons h _ ih => exact List.rel_append h ih

theorem aggregateColumns_spec {ms : List Measure} {es : List Expr} {refs : List (List UInt32)}
    {cols : List Ty} (h : aggregateColumns ms es refs = .ok cols) : AggregateSchema es refs ms cols := by
  unfold aggregateColumns at h
  obtain ⟨gs, hg, h⟩ := Res.bind_eq_ok.1 h
  obtain ⟨ts, ht, h⟩ := Res.bind_eq_ok.1 h
  cases h
  refine ⟨gs.flatten, ts, rfl, ?_, ?_⟩
  · apply forall₂_flatten
    refine List.Forall₂.imp (fun l us h => ?_) (mapL_forall₂.1 hg)
    refine List.Forall₂.imp (fun r t h => ?_) (mapL_forall₂.1 h)
    obtain ⟨e, he, h⟩ := Res.bind_eq_ok.1 h
    obtain ⟨-, he⟩ := Res.index_eq_ok.1 he
    exact ⟨e, by simpa using he, h⟩
  · refine List.Forall₂.imp (fun m t h => ?_) (mapL_forall₂.1 ht)
    unfold Measure.getType at h
    split at h
    · cases h
    · rename_i f hf
      cases h
      exact ⟨f, hf, rfl⟩

theorem aggregateColumns_total {ms : List Measure} {es : List Expr} {refs : List (List UInt32)}
    (hr : ∀ l ∈ refs, ∀ k ∈ l, k.toNat < es.length) (he : ∀ e ∈ es, ∃ t, e.getType = .ok t)
    (hm : ∀ m ∈ ms, m.measure ≠ none) : ∃ cols, aggregateColumns ms es refs = .ok cols := by
  obtain ⟨gs, hg⟩ := mapL_total' (f := fun g : List UInt32 =>
      Res.mapL (fun e : UInt32 => Res.index es e.toNat >>= Expr.getType) g) (l := refs) (fun l hl => by
    refine mapL_total' (fun k hk => ?_)
    have hlt := hr l hl k hk
    obtain ⟨t, ht⟩ := he _ (List.getElem_mem hlt)
    refine ⟨t, ?_⟩
    rw [Res.index_nat _ _ hlt]
    exact ht)
  obtain ⟨ts, ht⟩ := mapL_total' (f := Measure.getType) (l := ms) (fun m hm' => by
    cases h : m.measure with
    | none => exact absurd h (hm m hm')
    | some f => exact ⟨_, by unfold Measure.getType; rw [h]⟩)
  exact ⟨_, by unfold aggregateColumns; rw [hg, Res.ok_bind, ht]; rfl⟩

/-- The reference `r` denotes an expression with the identity of `p`. -/
def Points (es : List PExpr) (p : PExpr) (r : UInt32) : Prop :=
  ∃ x, es[r.toNat]? = some x ∧ x.addr = p.addr

theorem Points.mono {es : List PExpr} {p : PExpr} {r : UInt32} (h : Points es p r) (es' : List PExpr) :
    Points (es ++ es') p r := by
  obtain ⟨x, hx, h⟩ := h
  exact ⟨x, by rw [List.getElem?_append_left (List.getElem?_eq_some_iff.1 hx).1, hx], h⟩

theorem addExpressions_spec (es : List PExpr) : ∀ b : AggBuilder,
    b.exprs.length + es.length ≤ 2 ^ 32 →
    (addExpressions b es).1.input = b.input ∧ (addExpressions b es).1.measures = b.measures ∧
    (addExpressions b es).1.refs = b.refs ∧
    ∃ new, (addExpressions b es).1.exprs = b.exprs ++ new ∧ new.Sublist es ∧
      (∀ x ∈ es, ∃ y ∈ b.exprs ++ new, y.addr = x.addr) ∧
      List.Forall₂ (Points (b.exprs ++ new)) es (addExpressions b es).2 := by
  induction es with
  | nil =>
    intro b _
    exact ⟨rfl, rfl, rfl, [], by simp [addExpressions], List.Sublist.slnil, by simp, List.Forall₂.nil⟩
  | cons e es ih =>
    intro b hl
    have hgrow : (b.addExpression e).1.exprs.length ≤ b.exprs.length + 1 := by
      unfold AggBuilder.addExpression
      split <;> simp
    simp only [List.length_cons] at hl
    obtain ⟨h1, h2, h3, x, hx, hxa, hcase⟩ := addExpression_spec b e (by omega)
    obtain ⟨i1, i2, i3, new, i4, i5, i6, i7⟩ := ih (b.addExpression e).1 (by omega)
    simp only [addExpressions]
    refine ⟨i1.trans h1, i2.trans h2, i3.trans h3, ?_⟩
    rcases hcase with ⟨hc, hm⟩ | ⟨hc, rfl, hnew⟩
    · rw [hc] at i4 i6 i7 hx
      refine ⟨new, i4, i5.cons _, ?_, List.Forall₂.cons ?_ i7⟩
      · intro y hy
        rcases List.mem_cons.1 hy with rfl | hy
        · exact ⟨x, List.mem_append_left _ hm, hxa⟩
        · exact i6 y hy
      · exact Points.mono ⟨x, hx, hxa⟩ new
    · rw [hc] at i4 i6 i7 hx
      rw [List.append_assoc] at i4 i6 i7
      refine ⟨x :: new, i4, i5.cons_cons _, ?_, List.Forall₂.cons ?_ i7⟩
      · intro y hy
        rcases List.mem_cons.1 hy with rfl | hy
        · exact ⟨y, by simp, rfl⟩
        · exact i6 y hy
      · have := Points.mono (es := b.exprs ++ [x]) ⟨x, hx, rfl⟩ new
        simpa using this

theorem addGroups_spec (gs : List (List PExpr)) : ∀ b : AggBuilder,
    b.exprs.length + gs.flatten.length ≤ 2 ^ 32 →
    (addGroups b gs).input = b.input ∧ (addGroups b gs).measures = b.measures ∧
    ∃ new refs, (addGroups b gs).exprs = b.exprs ++ new ∧ (addGroups b gs).refs = b.refs ++ refs ∧
      new.Sublist gs.flatten ∧
      (∀ x ∈ gs.flatten, ∃ y ∈ b.exprs ++ new, y.addr = x.addr) ∧
      List.Forall₂ (List.Forall₂ (Points (b.exprs ++ new))) gs refs := by
  induction gs with
  | nil =>
    intro b _
    exact ⟨rfl, rfl, [], [], by simp [addGroups], by simp [addGroups], List.Sublist.slnil, by simp,
      List.Forall₂.nil⟩
  | cons g gs ih =>
    intro b hl
    simp only [List.flatten_cons, List.length_append] at hl
    obtain ⟨h1, h2, h3, new, h4, h5, h6, h7⟩ := addExpressions_spec g b (by omega)
    have hnl := h5.length_le
    obtain ⟨i1, i2, new', refs, i3, i4, i5, i6, i7⟩ :=
      ih ((addExpressions b g).1.addGroupingSet (addExpressions b g).2) (by
        simp only [AggBuilder.addGroupingSet, h4, List.length_append]; omega)
    simp only [AggBuilder.addGroupingSet, h4, h3, List.append_assoc] at i1 i2 i3 i4 i6 i7
    simp only [addGroups, AggBuilder.addGroupingSet, h4, h3]
    refine ⟨i1.trans h1, i2.trans h2, new ++ new', _ :: refs, by simpa using i3, by simpa using i4, ?_,
      ?_, List.Forall₂.cons ?_ (by simpa using i7)⟩
    · rw [List.flatten_cons]; exact h5.append i5
    · intro x hx
      rw [List.flatten_cons] at hx
      rcases List.mem_append.1 hx with hx | hx
      · obtain ⟨y, hy, hya⟩ := h6 x hx
        exact ⟨y, by rw [← List.append_assoc]; exact List.mem_append_left _ hy, hya⟩
      · exact i6 x hx
    · refine List.Forall₂.imp (fun p r h => ?_) h7
      rw [← List.append_assoc]
      exact h.mono new'

/-! ## Column references -/

theorem newFieldRef_spec {ts : List Ty} {i : Int32} {e : Expr} :
    newFieldRef .rootReference (.seg (.structField i .nil)) (some ts) = .ok e ↔
      ∃ t, ColumnAt ts i t ∧ e = .fieldRef .rootReference (.seg (.structField i .nil)) (some t) := by
  simp only [newFieldRef, Seg.getType, Seg.isNil, if_true, ColumnAt]
  constructor
  · intro h
    obtain ⟨t, ht, h⟩ := Res.bind_eq_ok.1 h
    cases h
    split at ht
    · cases ht
    · obtain ⟨u, hu, h⟩ := Res.bind_eq_ok.1 ht
      cases h
      exact ⟨_, Res.index_eq_ok.1 hu, rfl⟩
  · rintro ⟨t, ⟨h0, ht⟩, rfl⟩
    have hlt := (List.getElem?_eq_some_iff.1 ht).1
    rw [if_neg, Res.index_eq_ok.2 ⟨h0, ht⟩]
    · rfl
    · rintro (h | h)
      · have := Int32.lt_iff_toInt_lt.1 h
        rw [show (0 : Int32).toInt = 0 from rfl] at this
        omega
      · omega

theorem newFieldRef_column_ne_panic {ts : List Ty} {i : Int32} :
    newFieldRef .rootReference (.seg (.structField i .nil)) (some ts) ≠ .panic := by
  simp only [newFieldRef, Seg.getType, Seg.isNil, if_true]
  split
  · simp
  · rename_i h
    rw [not_or] at h
    have h0 : 0 ≤ i.toInt := by
      have := h.1
      rw [Int32.not_lt, Int32.le_iff_toInt_le] at this
      exact this
    have hlt : i.toInt.toNat < ts.length := by omega
    rw [Res.index_eq_ok.2 ⟨h0, List.getElem?_eq_getElem hlt⟩]
    simp [Res.ok_bind]

theorem columnRef_spec {ts : List Ty} {i : Int32} (hc : Countable ts) (e : Expr) :
    (if i < 0 ∨ Int32.ofNat ts.length < i then (Res.err : Res Expr)
      else newFieldRef .rootReference (.seg (.structField i .nil)) (some ts)) = .ok e ↔
    ∃ t, ColumnAt ts i t ∧ e = .fieldRef .rootReference (.seg (.structField i .nil)) (some t) := by
  split
  · rename_i h
    constructor
    · intro h; cases h
    · rintro ⟨t, ⟨h0, ht⟩, -⟩
      exfalso
      have hlt := (List.getElem?_eq_some_iff.1 ht).1
      rcases h with h | h
      · have := Int32.lt_iff_toInt_lt.1 h
        rw [show (0 : Int32).toInt = 0 from rfl] at this
        omega
      · have := Int32.lt_iff_toInt_lt.1 h
        unfold Countable at hc
        rw [Int32.toInt_ofNat_of_lt (by omega)] at this
        omega
  · exact newFieldRef_spec

theorem columnRef_err {ts : List Ty} {i : Int32} (hc : Countable ts) (hno : ∀ t, ¬ ColumnAt ts i t) :
    (if i < 0 ∨ Int32.ofNat ts.length < i then (Res.err : Res Expr)
      else newFieldRef .rootReference (.seg (.structField i .nil)) (some ts)) = .err := by
  have hsp := columnRef_spec (i := i) hc
  split_ifs with hb
  · rfl
  · simp only [if_neg hb] at hsp
    cases hx : newFieldRef .rootReference (.seg (.structField i .nil)) (some ts) with
    | ok e =>
      obtain ⟨t, ht, -⟩ := (hsp e).1 hx
      exact absurd ht (hno t)
    | err => rfl
    | panic => exact absurd hx newFieldRef_column_ne_panic

theorem findAddr_fresh {a : Nat} {xs : List PExpr} (h : ∀ x ∈ xs, x.addr < a) (k : Nat) :
    findAddr a k xs = none := by
  cases hf : findAddr a k xs with
  | none => rfl
  | some i =>
    obtain ⟨j, x, hx, -, hxa⟩ := findAddr_some hf
    have := h x (List.mem_of_getElem? hx)
    omega

theorem addColumns_spec {input : Rel} (cs : List Int32) : ∀ (b : AggBuilder) (k : Nat)
    (b' : AggBuilder) (refs : List UInt32), b.exprs.length = k → (∀ x ∈ b.exprs, x.addr < k) →
    addColumns input b k cs = .ok (b', refs) →
    ∃ new : List PExpr, b'.exprs = b.exprs ++ new ∧ b'.input = b.input ∧ b'.measures = b.measures ∧
      b'.refs = b.refs ∧ refs = (List.range' k cs.length).map UInt32.ofNat ∧
      List.Forall₂ (fun c (p : PExpr) => rootFieldRef input c = .ok p.e) cs new := by
  induction cs with
  | nil =>
    intro b k b' refs _ _ h
    cases h
    exact ⟨[], by simp, rfl, rfl, rfl, rfl, List.Forall₂.nil⟩
  | cons c cs ih =>
    intro b k b' refs hk hlt h
    simp only [addColumns] at h
    obtain ⟨ref, hr, h⟩ := Res.bind_eq_ok.1 h
    simp only [AggBuilder.addExpression, findAddr_fresh hlt] at h
    obtain ⟨⟨b2, rs⟩, h2, h⟩ := Res.bind_eq_ok.1 h
    cases h
    obtain ⟨new, e1, e2, e3, e4, e5, e6⟩ := ih { b with exprs := b.exprs ++ [⟨k, ref⟩] } (k + 1) _ rs (by simp [hk]) (by
      intro x hx
      rcases List.mem_append.1 hx with hx | hx
      · have := hlt x hx; omega
      · rw [List.mem_singleton.1 hx]; simp) h2
    refine ⟨⟨k, ref⟩ :: new, by simpa using e1, e2, e3, e4, ?_, List.Forall₂.cons hr e6⟩
    rw [e5, List.length_cons, List.range'_succ, List.map_cons, hk]

theorem addColumns_total {input : Rel} (cs : List Int32) (hcs : ∀ c ∈ cs, ∃ e, rootFieldRef input c = .ok e) :
    ∀ (b : AggBuilder) (k : Nat), ∃ p, addColumns input b k cs = .ok p := by
  induction cs with
  | nil => intro b k; exact ⟨_, rfl⟩
  | cons c cs ih =>
    intro b k
    obtain ⟨e, he⟩ := hcs c (by simp)
    obtain ⟨p, hp⟩ := ih (fun c' h' => hcs c' (by simp [h'])) (b.addExpression ⟨k, e⟩).1 (k + 1)
    exact ⟨_, by simp only [addColumns, he, Res.ok_bind, hp]; rfl⟩

end Verif

import Verif.Lemmas.RelRewrite
import Verif.Props.RelProto
/-!
# Rewriting the expressions of a relation (C48)
-/

namespace Verif

/-- **C48, part.** With a right number of inputs the result of `CopyWithExpressionRewrite` is the
relation with the new inputs and every expression replaced, or the receiver if that is the same; with
a wrong number it fails. Missing from the full statement: the expressions that rewriting overlooks
(values of virtual tables, sort fields of aggregate functions, join keys) have to be ones the function
does not change, and relations without a fixed number of inputs have to be given as many as before. -/
theorem C48_rewrite_partial (sh : Sharing) (f : RewriteFn) (g : Expr → Expr) (r : Rel)
    (ins : List NewInput) (hf : Replaces f g (r.looked ++ r.overlooked))
    (ho : ∀ e ∈ r.overlooked, g e = e)
    (he : ∀ c b vs, r = .read c b (.virt vs) → ∀ e ∈ vs.flatten, ∃ q, e.equals sh e = .ok q)
    (hi : HonestInputs r ins) (hn : r.FixedInputs ∨ ins.length = r.getInputs.length) :
    RewritesWell sh f g r ins := by
  have hl : Replaces f g r.looked := hf.sub (by simp +contextual)
  cases r with
  | read c b k =>
    obtain hn | hn := hn
    · exact hn.elim
    refine ⟨fun _ => ?_, fun h => absurd hn h⟩
    obtain rfl : ins = [] := List.length_eq_zero_iff.1 hn
    obtain ⟨s₁, h₁, h₁'⟩ := hl b.filter (by simp [Rel.looked])
    obtain ⟨s₂, h₂, h₂'⟩ := hl b.bestEffort (by simp [Rel.looked])
    have key : (Rel.read c b k).copyRewrite sh f [] = .ok
        (.read c { b with filter := g b.filter, bestEffort := g b.bestEffort } k, s₁ && s₂) := by
      cases hs : s₁ && s₂ with
      | true =>
        obtain ⟨rfl, rfl⟩ := Bool.and_eq_true_iff.1 hs
        simp [Rel.copyRewrite, h₁, h₂, h₁' rfl, h₂' rfl]
      | false =>
        have hs' : ¬ (s₁ = true ∧ s₂ = true) := by simpa using hs
        cases k with
        | virt vs =>
          classical
          have hv : ∀ e ∈ vs.flatten, (∃ b, f e = .ok (g e, b)) ∧ (g e).equals sh e =
              .ok (if h : ∃ q, e.equals sh e = .ok q then Classical.choose h else false) := by
            intro e hm
            obtain ⟨b', hb, -⟩ := hf e (List.mem_append_right _ hm)
            have hq := he c b vs rfl e hm
            refine ⟨⟨b', hb⟩, ?_⟩
            rw [ho e hm, dif_pos hq]
            exact Classical.choose_spec hq
          have hr := rewriteTableRows_ok (u := true) hv
          rw [rows_id_of ho] at hr
          simp [Rel.copyRewrite, h₁, h₂, hs', hr]
        | _ => simp [Rel.copyRewrite, h₁, h₂, hs']
    have hm : ((Rel.read c b k).withInputs (([] : List NewInput).map (·.1))).mapExpr g =
        .read c { b with filter := g b.filter, bestEffort := g b.bestEffort } k := by
      cases k with
      | virt vs => simp only [Rel.withInputs, Rel.mapExpr]; rw [rows_id_of ho]
      | _ => rfl
    rw [hm]
    refine ⟨_, key, fun hs => ?_⟩
    simp only [Bool.and_eq_true] at hs
    rw [h₁' hs.1, h₂' hs.2]
  | extLeaf c d =>
    obtain hn | hn := hn
    · exact hn.elim
    exact ⟨fun _ => ⟨true, rfl, fun _ => rfl⟩, fun h => absurd hn h⟩
  | project c i es a =>
    match ins with
    | [(j, sj)] =>
      refine ⟨fun _ => ?_, fun h => absurd rfl h⟩
      obtain ⟨s, h, h'⟩ := rewriteAll_replaces hl
      have hj : sj = true → j = i := fun e => hi i j 0 rfl (by subst e; rfl)
      cases s <;> cases sj <;>
        simp_all [Rel.copyRewrite, sameInputs, Rel.getInputs, Rel.withInputs, Rel.mapExpr, Rel.looked]
    | [] => exact ⟨fun h => absurd h (by simp [Rel.getInputs]), fun _ => rfl⟩
    | _ :: _ :: _ => exact ⟨fun h => absurd h (by simp [Rel.getInputs]), fun _ => rfl⟩
  | join c l r e p t a =>
    match ins with
    | [(l', sl), (r', sr)] =>
      refine ⟨fun _ => ?_, fun h => absurd rfl h⟩
      obtain ⟨s₁, h₁, h₁'⟩ := hl e (by simp [Rel.looked])
      obtain ⟨s₂, h₂, h₂'⟩ := hl p (by simp [Rel.looked])
      have hj : sl = true → l' = l := fun e => hi l l' 0 rfl (by subst e; rfl)
      have hk : sr = true → r' = r := fun e => hi r r' 1 rfl (by subst e; rfl)
      clear hl hf hi
      cases s₁ <;> cases s₂ <;> cases sl <;> cases sr <;>
        simp_all [Rel.copyRewrite, sameInputs, Rel.getInputs, Rel.withInputs, Rel.mapExpr]
    | [] => exact ⟨fun h => absurd h (by simp [Rel.getInputs]), fun _ => rfl⟩
    | [_] => exact ⟨fun h => absurd h (by simp [Rel.getInputs]), fun _ => rfl⟩
    | _ :: _ :: _ :: _ => exact ⟨fun h => absurd h (by simp [Rel.getInputs]), fun _ => rfl⟩
  | cross c l r a =>
    match ins with
    | [(l', sl), (r', sr)] =>
      refine ⟨fun _ => ?_, fun h => absurd rfl h⟩
      have hj : sl = true → l' = l := fun e => hi l l' 0 rfl (by subst e; rfl)
      have hk : sr = true → r' = r := fun e => hi r r' 1 rfl (by subst e; rfl)
      clear hl hf hi
      cases sl <;> cases sr <;>
        simp_all [Rel.copyRewrite, sameInputs, Rel.getInputs, Rel.withInputs, Rel.mapExpr, Rel.copy]
    | [] => exact ⟨fun h => absurd h (by simp [Rel.getInputs]), fun _ => rfl⟩
    | [_] => exact ⟨fun h => absurd h (by simp [Rel.getInputs]), fun _ => rfl⟩
    | _ :: _ :: _ :: _ => exact ⟨fun h => absurd h (by simp [Rel.getInputs]), fun _ => by
        simp [Rel.copyRewrite, sameInputs, Rel.getInputs, Rel.copy]⟩
  | fetch c i o n a =>
    match ins with
    | [(j, sj)] =>
      refine ⟨fun _ => ?_, fun h => absurd rfl h⟩
      have hj : sj = true → j = i := fun e => hi i j 0 rfl (by subst e; rfl)
      cases sj <;> simp_all [Rel.copyRewrite, Rel.withInputs, Rel.mapExpr]
    | [] => exact ⟨fun h => absurd h (by simp [Rel.getInputs]), fun _ => rfl⟩
    | _ :: _ :: _ => exact ⟨fun h => absurd h (by simp [Rel.getInputs]), fun _ => rfl⟩
  | aggregate c i ms es rs a =>
    match ins with
    | [(j, sj)] =>
      refine ⟨fun _ => ?_, fun h => absurd rfl h⟩
      obtain ⟨s₁, h₁, h₁'⟩ := rewriteAll_replaces (es := es)
        (hl.sub (fun x hx => List.mem_append_left _ hx))
      obtain ⟨s₂, h₂, h₂'⟩ := rewriteMeasures_replaces (ms := ms)
        (hl.sub (fun x hx => List.mem_append_right _ hx)) ho
      have hj : sj = true → j = i := fun e => hi i j 0 rfl (by subst e; rfl)
      clear hl hf hi ho
      cases s₁ <;> cases s₂ <;> cases sj <;>
        simp_all [Rel.copyRewrite, Rel.withInputs, Rel.mapExpr]
    | [] => exact ⟨fun h => absurd h (by simp [Rel.getInputs]), fun _ => rfl⟩
    | _ :: _ :: _ => exact ⟨fun h => absurd h (by simp [Rel.getInputs]), fun _ => rfl⟩
  | sort c i ss a =>
    match ins with
    | [(j, sj)] =>
      refine ⟨fun _ => ?_, fun h => absurd rfl h⟩
      obtain ⟨s, h, h'⟩ := rewriteSorts_replaces hl
      have hj : sj = true → j = i := fun e => hi i j 0 rfl (by subst e; rfl)
      clear hl hf hi ho
      cases s <;> cases sj <;> simp_all [Rel.copyRewrite, Rel.withInputs, Rel.mapExpr]
    | [] => exact ⟨fun h => absurd h (by simp [Rel.getInputs]), fun _ => rfl⟩
    | _ :: _ :: _ => exact ⟨fun h => absurd h (by simp [Rel.getInputs]), fun _ => rfl⟩
  | filter c i e a =>
    match ins with
    | [(j, sj)] =>
      refine ⟨fun _ => ?_, fun h => absurd rfl h⟩
      obtain ⟨s, h, h'⟩ := hl e (by simp [Rel.looked])
      have hj : sj = true → j = i := fun e => hi i j 0 rfl (by subst e; rfl)
      clear hl hf hi ho
      cases s <;> cases sj <;> simp_all [Rel.copyRewrite, Rel.withInputs, Rel.mapExpr]
    | [] => exact ⟨fun h => absurd h (by simp [Rel.getInputs]), fun _ => rfl⟩
    | _ :: _ :: _ => exact ⟨fun h => absurd h (by simp [Rel.getInputs]), fun _ => rfl⟩
  | set c is op a =>
    obtain hn | hn := hn
    · exact hn.elim
    refine ⟨fun _ => ?_, fun h => absurd hn h⟩
    cases hs : sameInputs (.set c is op a) ins with
    | false => exact ⟨false, by simp [Rel.copyRewrite, hs, Rel.copy, Rel.withInputs, Rel.mapExpr], by simp⟩
    | true =>
      have : ins.map (·.1) = is := sameInputs_eq hi hs
      exact ⟨true, by simp [Rel.copyRewrite, hs, this, Rel.withInputs, Rel.mapExpr],
        fun _ => by simp [this, Rel.withInputs, Rel.mapExpr]⟩
  | extSingle c i d =>
    match ins with
    | [(j, sj)] =>
      refine ⟨fun _ => ?_, fun h => absurd rfl h⟩
      have hj : sj = true → j = i := fun e => hi i j 0 rfl (by subst e; rfl)
      clear hl hf hi ho
      cases sj <;> simp_all [Rel.copyRewrite, Rel.withInputs, Rel.mapExpr, sameInputs, Rel.getInputs,
        Rel.copy]
    | [] => exact ⟨fun h => absurd h (by simp [Rel.getInputs]), fun _ => rfl⟩
    | _ :: _ :: _ => exact ⟨fun h => absurd h (by simp [Rel.getInputs]), fun _ => by
        simp [Rel.copyRewrite, sameInputs, Rel.getInputs, Rel.copy]⟩
  | extMulti c is d =>
    obtain hn | hn := hn
    · exact hn.elim
    refine ⟨fun _ => ?_, fun h => absurd hn h⟩
    cases hs : sameInputs (.extMulti c is d) ins with
    | false => exact ⟨false, by simp [Rel.copyRewrite, hs, Rel.copy, Rel.withInputs, Rel.mapExpr], by simp⟩
    | true =>
      have : ins.map (·.1) = is := sameInputs_eq hi hs
      exact ⟨true, by simp [Rel.copyRewrite, hs, this, Rel.withInputs, Rel.mapExpr],
        fun _ => by simp [this, Rel.withInputs, Rel.mapExpr]⟩
  | hashJoin c l r ks p t a =>
    match ins with
    | [(l', sl), (r', sr)] =>
      refine ⟨fun _ => ?_, fun h => absurd rfl h⟩
      obtain ⟨s, h, h'⟩ := hl p (by simp [Rel.looked])
      have hks := keys_mapExpr_id ho
      have hj : sl = true → l' = l := fun e => hi l l' 0 rfl (by subst e; rfl)
      have hk : sr = true → r' = r := fun e => hi r r' 1 rfl (by subst e; rfl)
      clear hl hf hi ho
      cases s <;> cases sl <;> cases sr <;>
        simp_all [Rel.copyRewrite, sameInputs, Rel.getInputs, Rel.withInputs, Rel.mapExpr]
    | [] => exact ⟨fun h => absurd h (by simp [Rel.getInputs]), fun _ => rfl⟩
    | [_] => exact ⟨fun h => absurd h (by simp [Rel.getInputs]), fun _ => rfl⟩
    | _ :: _ :: _ :: _ => exact ⟨fun h => absurd h (by simp [Rel.getInputs]), fun _ => rfl⟩
  | mergeJoin c l r ks p t a =>
    match ins with
    | [(l', sl), (r', sr)] =>
      refine ⟨fun _ => ?_, fun h => absurd rfl h⟩
      obtain ⟨s, h, h'⟩ := hl p (by simp [Rel.looked])
      have hks := keys_mapExpr_id ho
      have hj : sl = true → l' = l := fun e => hi l l' 0 rfl (by subst e; rfl)
      have hk : sr = true → r' = r := fun e => hi r r' 1 rfl (by subst e; rfl)
      clear hl hf hi ho
      cases s <;> cases sl <;> cases sr <;>
        simp_all [Rel.copyRewrite, sameInputs, Rel.getInputs, Rel.withInputs, Rel.mapExpr]
    | [] => exact ⟨fun h => absurd h (by simp [Rel.getInputs]), fun _ => rfl⟩
    | [_] => exact ⟨fun h => absurd h (by simp [Rel.getInputs]), fun _ => rfl⟩
    | _ :: _ :: _ :: _ => exact ⟨fun h => absurd h (by simp [Rel.getInputs]), fun _ => rfl⟩
  | write c ns a s op i m =>
    match ins with
    | [(j, sj)] =>
      refine ⟨fun _ => ?_, fun h => absurd rfl h⟩
      have hj : sj = true → j = i := fun e => hi i j 0 rfl (by subst e; rfl)
      clear hl hf hi ho
      cases sj <;> simp_all [Rel.copyRewrite, Rel.withInputs, Rel.mapExpr, sameInputs, Rel.getInputs,
        Rel.copy]
    | [] => exact ⟨fun h => absurd h (by simp [Rel.getInputs]), fun _ => rfl⟩
    | _ :: _ :: _ => exact ⟨fun h => absurd h (by simp [Rel.getInputs]), fun _ => by
        simp [Rel.copyRewrite, sameInputs, Rel.getInputs, Rel.copy]⟩

/-- the function that replaces the literal 7 (and nothing else) by a null -/
def exForget (e : Expr) : Expr :=
  match e with
  | .lit (.prim (.int32 7) _) => .lit (.null (.prim .i32 1 0))
  | e => e

/-- ... as rewrite function -/
def exForgetFn : RewriteFn := fun e =>
  match e with
  | .lit (.prim (.int32 7) _) => .ok (.lit (.null (.prim .i32 1 0)), false)
  | e => .ok (e, true)

theorem exForget_replaces (es : List Expr) : Replaces exForgetFn exForget es := by
  intro e _
  unfold exForgetFn exForget
  split
  · exact ⟨false, rfl, by simp⟩
  · exact ⟨true, rfl, fun _ => rfl⟩

/-- The aggregate, the scan and the hash join of the examples meet the hypotheses. -/
example : RewritesWell ⟨fun _ _ => false, fun _ _ => false⟩ exForgetFn exForget exSum [(exScan, false)] :=
  C48_rewrite_partial _ _ _ _ _ (exForget_replaces _) (by
      intro e he
      simp [exSum, Rel.overlooked, ESort.key] at he
      subst he; rfl)
    (by simp [exSum]) (by
      intro i j k _ h
      cases k <;> simp at h) (.inl trivial)

/-- The filter of the example scan is replaced. -/
example : exScan.copyRewrite ⟨fun _ _ => false, fun _ _ => false⟩ exForgetFn [] =
    .ok (.read ⟨some 3, some [1, 0], some 8⟩
      ⟨⟨["a", "b"], 2, 0, [.prim .string 1 0, .prim .i32 2 0]⟩, .lit (.null (.prim .i32 1 0)), .nil,
        some 9, some 2⟩ (.named ["db", "t"] (some 4)), false) := rfl

/-- **C48, nothing changed.** When the function returns every expression it is given, and the inputs
are the present ones, the result is the receiver. -/
theorem C48_same (sh : Sharing) (f : RewriteFn) (r : Rel)
    (hf : ∀ e ∈ r.looked, f e = .ok (e, true)) :
    r.copyRewrite sh f (r.getInputs.map (·, true)) = .ok (r, true) := by
  have all : ∀ es : List Expr, (∀ e ∈ es, f e = .ok (e, true)) → rewriteAll f es = .ok (es, true) := by
    intro es h
    induction es with
    | nil => rfl
    | cons e es ih =>
      simp [rewriteAll, h e (by simp), ih (fun x hx => h x (List.mem_cons_of_mem _ hx))]
  have sorts : ∀ ss : List ESort, (∀ e ∈ ss.map ESort.key, f e = .ok (e, true)) →
      rewriteSorts f ss = .ok (ss, true) := by
    intro ss h
    induction ss with
    | nil => rfl
    | cons s ss ih =>
      obtain ⟨e, k⟩ := s
      rw [List.map_cons] at h
      simp [rewriteSorts, h e (by simp [ESort.key]), ih (fun x hx => h x (List.mem_cons_of_mem _ hx))]
  have args : ∀ as : List EArg, (∀ e ∈ as.flatMap EArg.ownExpr, f e = .ok (e, true)) →
      ∃ as', rewriteArgs f as = .ok (as', true) := by
    intro as h
    induction as with
    | nil => exact ⟨_, rfl⟩
    | cons a as ih =>
      rw [List.flatMap_cons] at h
      obtain ⟨as', h'⟩ := ih (fun x hx => h x (List.mem_append_right _ hx))
      cases a with
      | expr e =>
        cases hn : e.isNil with
        | true => exact ⟨_, by simp [rewriteArgs, hn, h']; rfl⟩
        | false =>
          have he := h e (by simp [arg_exprs hn])
          exact ⟨_, by simp [rewriteArgs, hn, h', he]; rfl⟩
      | _ => exact ⟨_, by simp [rewriteArgs, h']; rfl⟩
  have measures : ∀ ms : List Measure, (∀ e ∈ ms.flatMap fun m =>
        m.filter :: (m.measure.toList.flatMap (·.args)).flatMap EArg.ownExpr, f e = .ok (e, true)) →
      rewriteMeasures f ms = .ok (ms, true) := by
    intro ms h
    induction ms with
    | nil => rfl
    | cons m ms ih =>
      rw [List.flatMap_cons] at h
      have hm := ih (fun x hx => h x (List.mem_append_right _ hx))
      have h₁ := h m.filter (by simp)
      obtain ⟨_ | fn, flt⟩ := m
      · simp [rewriteMeasures, rewriteAggFn, hm, h₁]
      · obtain ⟨as', ha⟩ := args fn.args (fun x hx => h x (List.mem_append_left _
          (List.mem_cons_of_mem _ (by simpa using hx))))
        simp [rewriteMeasures, rewriteAggFn, hm, h₁, ha]
  cases r with
  | read c b k =>
    simp [Rel.copyRewrite, hf b.filter (by simp [Rel.looked]), hf b.bestEffort (by simp [Rel.looked])]
  | project c i es a =>
    simp [Rel.copyRewrite, Rel.getInputs, sameInputs, all es (fun e he => hf e he)]
  | join c l r e p t a =>
    simp [Rel.copyRewrite, Rel.getInputs, sameInputs, hf e (by simp [Rel.looked]),
      hf p (by simp [Rel.looked])]
  | aggregate c i ms es rs a =>
    simp [Rel.copyRewrite, Rel.getInputs,
      all es (fun e he => hf e (List.mem_append_left _ he)),
      measures ms (fun e he => hf e (List.mem_append_right _ he))]
  | sort c i ss a =>
    simp [Rel.copyRewrite, Rel.getInputs, sorts ss (fun e he => hf e he)]
  | filter c i e a => simp [Rel.copyRewrite, Rel.getInputs, hf e (by simp [Rel.looked])]
  | hashJoin c l r ks p t a =>
    simp [Rel.copyRewrite, Rel.getInputs, sameInputs, hf p (by simp [Rel.looked])]
  | mergeJoin c l r ks p t a =>
    simp [Rel.copyRewrite, Rel.getInputs, sameInputs, hf p (by simp [Rel.looked])]
  | _ => simp [Rel.copyRewrite, Rel.getInputs, sameInputs]

/-- A function that leaves everything alone. -/
example : exTree.copyRewrite ⟨fun _ _ => false, fun _ _ => false⟩ (fun e => .ok (e, true))
    (exTree.getInputs.map (·, true)) = .ok (exTree, true) := C48_same _ _ _ (fun _ _ => rfl)

/-- **C48, failures.** When the function fails on one of the expressions it is given (and otherwise
returns), there is no result. -/
theorem C48_error (sh : Sharing) (f : RewriteFn) (r : Rel) (ins : List NewInput) (e : Expr)
    (he : e ∈ r.looked) (hf : f e = .err) (out : Rel × Bool) : r.copyRewrite sh f ins ≠ .ok out := by
  have all : ∀ es : List Expr, e ∈ es → ∀ o, rewriteAll f es ≠ .ok o := by
    intro es hm o h
    induction es generalizing o with
    | nil => cases hm
    | cons x es ih =>
      simp only [rewriteAll, Res.bind_eq_ok] at h
      obtain ⟨_, h₁, _, h₂, -⟩ := h
      rcases List.mem_cons.1 hm with rfl | hm
      · rw [hf] at h₁; cases h₁
      · exact ih hm _ h₂
  have sorts : ∀ ss : List ESort, e ∈ ss.map ESort.key → ∀ o, rewriteSorts f ss ≠ .ok o := by
    intro ss hm o h
    induction ss generalizing o with
    | nil => cases hm
    | cons s ss ih =>
      obtain ⟨x, k⟩ := s
      simp only [rewriteSorts, Res.bind_eq_ok] at h
      obtain ⟨_, h₁, _, h₂, -⟩ := h
      rw [List.map_cons] at hm
      rcases List.mem_cons.1 hm with hm | hm
      · simp only [ESort.key] at hm; subst hm; rw [hf] at h₁; cases h₁
      · exact ih hm _ h₂
  have args : ∀ as : List EArg, e ∈ as.flatMap EArg.ownExpr → ∀ o, rewriteArgs f as ≠ .ok o := by
    intro as hm o h
    induction as generalizing o with
    | nil => simp at hm
    | cons a as ih =>
      rw [List.flatMap_cons, List.mem_append] at hm
      cases a with
      | expr x =>
        cases hn : x.isNil with
        | true =>
          obtain rfl := isNil_eq hn
          simp only [rewriteArgs, Expr.isNil, if_true, Res.bind_eq_ok] at h
          obtain ⟨_, h₂, -⟩ := h
          exact ih (hm.resolve_left (by simp [EArg.ownExpr])) _ h₂
        | false =>
          simp only [rewriteArgs, hn, Bool.false_eq_true, if_false, Res.bind_eq_ok] at h
          obtain ⟨_, h₁, _, h₂, -⟩ := h
          rw [arg_exprs hn, List.mem_singleton] at hm
          rcases hm with rfl | hm
          · rw [hf] at h₁; cases h₁
          · exact ih hm _ h₂
      | _ =>
        simp only [rewriteArgs, Res.bind_eq_ok] at h
        obtain ⟨_, h₂, -⟩ := h
        exact ih (hm.resolve_left (by simp [EArg.ownExpr])) _ h₂
  have measures : ∀ ms : List Measure, (e ∈ ms.flatMap fun m =>
        m.filter :: (m.measure.toList.flatMap (·.args)).flatMap EArg.ownExpr) →
      ∀ o, rewriteMeasures f ms ≠ .ok o := by
    intro ms hm o h
    induction ms generalizing o with
    | nil => simp at hm
    | cons m ms ih =>
      simp only [rewriteMeasures, Res.bind_eq_ok] at h
      obtain ⟨_, h₁, _, h₂, _, h₃, -⟩ := h
      rw [List.flatMap_cons, List.mem_append] at hm
      rcases hm with hm | hm
      · rcases List.mem_cons.1 hm with rfl | hm
        · rw [hf] at h₁; cases h₁
        · obtain ⟨_ | fn, flt⟩ := m
          · simp at hm
          · simp only [rewriteAggFn, Res.bind_eq_ok] at h₂
            obtain ⟨_, h₂, -⟩ := h₂
            exact args _ (by simpa using hm) _ h₂
      · exact ih hm _ h₃
  intro h
  cases r with
  | read c b k =>
    simp only [Rel.copyRewrite, Res.bind_eq_ok] at h
    obtain ⟨_, h₁, _, h₂, -⟩ := h
    simp only [Rel.looked, List.mem_cons, List.not_mem_nil, or_false] at he
    rcases he with rfl | rfl
    · rw [hf] at h₁; cases h₁
    · rw [hf] at h₂; cases h₂
  | project c i es a =>
    match ins with
    | [(j, sj)] =>
      simp only [Rel.copyRewrite, Res.bind_eq_ok] at h
      obtain ⟨_, h₁, -⟩ := h
      exact all es he _ h₁
    | [] => cases h
    | _ :: _ :: _ => cases h
  | join c l r x p t a =>
    match ins with
    | [(l', sl), (r', sr)] =>
      simp only [Rel.copyRewrite, Res.bind_eq_ok] at h
      obtain ⟨_, h₁, _, h₂, -⟩ := h
      simp only [Rel.looked, List.mem_cons, List.not_mem_nil, or_false] at he
      rcases he with rfl | rfl
      · rw [hf] at h₁; cases h₁
      · rw [hf] at h₂; cases h₂
    | [] => cases h
    | [_] => cases h
    | _ :: _ :: _ :: _ => cases h
  | aggregate c i ms es rs a =>
    match ins with
    | [(j, sj)] =>
      simp only [Rel.copyRewrite, Res.bind_eq_ok] at h
      obtain ⟨_, h₁, _, h₂, -⟩ := h
      simp only [Rel.looked, List.mem_append] at he
      rcases he with he | he
      · exact all es he _ h₁
      · exact measures ms he _ h₂
    | [] => cases h
    | _ :: _ :: _ => cases h
  | sort c i ss a =>
    match ins with
    | [(j, sj)] =>
      simp only [Rel.copyRewrite, Res.bind_eq_ok] at h
      obtain ⟨_, h₁, -⟩ := h
      exact sorts ss he _ h₁
    | [] => cases h
    | _ :: _ :: _ => cases h
  | filter c i x a =>
    match ins with
    | [(j, sj)] =>
      simp only [Rel.copyRewrite, Res.bind_eq_ok] at h
      obtain ⟨_, h₁, -⟩ := h
      simp only [Rel.looked, List.mem_singleton] at he
      subst he; rw [hf] at h₁; cases h₁
    | [] => cases h
    | _ :: _ :: _ => cases h
  | hashJoin c l r ks p t a =>
    match ins with
    | [(l', sl), (r', sr)] =>
      simp only [Rel.copyRewrite, Res.bind_eq_ok] at h
      obtain ⟨_, h₁, -⟩ := h
      simp only [Rel.looked, List.mem_singleton] at he
      subst he; rw [hf] at h₁; cases h₁
    | [] => cases h
    | [_] => cases h
    | _ :: _ :: _ :: _ => cases h
  | mergeJoin c l r ks p t a =>
    match ins with
    | [(l', sl), (r', sr)] =>
      simp only [Rel.copyRewrite, Res.bind_eq_ok] at h
      obtain ⟨_, h₁, -⟩ := h
      simp only [Rel.looked, List.mem_singleton] at he
      subst he; rw [hf] at h₁; cases h₁
    | [] => cases h
    | [_] => cases h
    | _ :: _ :: _ :: _ => cases h
  | _ => simp [Rel.looked] at he

/-- A function failing on the argument of the example's sum. -/
example (out : Rel × Bool) : exSum.copyRewrite ⟨fun _ _ => false, fun _ _ => false⟩
    (fun e => match e with | .fieldRef .. => .err | e => .ok (e, true)) [(exScan, true)] ≠ .ok out :=
  C48_error _ _ _ _ (exCol 0 (.prim .i32 2 0)) (by simp [exSum, Rel.looked]) rfl _

/-- **C48, virtual tables.** When rewriting the filters changed something, the values are rewritten
too, unless each new value equals the old one (then the old ones stay). -/
theorem C48_virtual (sh : Sharing) (f : RewriteFn) (g : Expr → Expr) (q : Expr → Bool)
    (c : RelCommon) (b : BaseRead) (vs : List (List Expr)) (ins : List NewInput) (s₁ s₂ : Bool)
    (h₁ : f b.filter = .ok (g b.filter, s₁)) (h₂ : f b.bestEffort = .ok (g b.bestEffort, s₂))
    (hs : ¬ (s₁ = true ∧ s₂ = true))
    (hv : ∀ e ∈ vs.flatten, (∃ s, f e = .ok (g e, s)) ∧ (g e).equals sh e = .ok (q e)) :
    (Rel.read c b (.virt vs)).copyRewrite sh f ins = .ok
      (if ∀ e ∈ vs.flatten, q e = true then
        .read c { b with filter := g b.filter, bestEffort := g b.bestEffort } (.virt vs)
      else (Rel.read c b (.virt vs)).mapExpr g, false) := by
  have hr := rewriteTableRows_ok (u := true) hv
  by_cases hq : ∀ e ∈ vs.flatten, q e = true
  · have hq' : vs.flatten.all q = true := List.all_eq_true.2 hq
    rw [if_pos hq]
    simp only [Rel.copyRewrite, h₁, h₂, Res.ok_bind, hr, hq', Bool.true_and, Bool.and_eq_true, hs,
      if_true, if_false]
  · have hq' : vs.flatten.all q = false := by
      rw [← Bool.not_eq_true, List.all_eq_true]; exact hq
    rw [if_neg hq]
    simp only [Rel.copyRewrite, h₁, h₂, Res.ok_bind, hr, hq', Bool.true_and, Bool.and_eq_true, hs,
      if_false, Rel.mapExpr, Bool.false_eq_true]

/-- A table whose filter is the literal 7, too: filter and value are replaced. -/
example (sh : Sharing) (c : RelCommon) (s : NamedStruct) :
    (Rel.read c ⟨s, .lit exLit7, .nil, none, none⟩ (.virt [[.lit exLit7]])).copyRewrite sh exForgetFn []
      = .ok (.read c ⟨s, .lit (.null (.prim .i32 1 0)), .nil, none, none⟩
        (.virt [[.lit (.null (.prim .i32 1 0))]]), false) := by
  rw [C48_virtual sh exForgetFn exForget (fun _ => false) c _ _ [] false true rfl rfl (by simp) (by
    intro e he
    simp only [List.flatten_cons, List.flatten_nil, List.append_nil, List.mem_singleton] at he
    subst he
    have h : exForget (.lit exLit7) = .lit (.null (.prim .i32 1 0)) := rfl
    exact ⟨⟨false, rfl⟩, by rw [h]; simp [exLit7, Expr.equals, Lit.equals]⟩)]
  rw [if_neg (by simp)]
  rfl

/-- C48 in full, for all relations, functions and inputs. -/
def C48_statement : Prop :=
  ∀ (sh : Sharing) (f : RewriteFn) (g : Expr → Expr) (r : Rel) (ins : List NewInput),
    Replaces f g (r.looked ++ r.overlooked) → HonestInputs r ins → RewritesWell sh f g r ins

/-- **C48, negation: virtual tables.** When the filters stay as they are, the function is not applied
to the values of a virtual table: the receiver is returned whatever the function does to them. -/
theorem C48_negation_virtual (sh : Sharing) (f : RewriteFn) (c : RelCommon) (b : BaseRead)
    (vs : List (List Expr)) (ins : List NewInput) (h₁ : f b.filter = .ok (b.filter, true))
    (h₂ : f b.bestEffort = .ok (b.bestEffort, true)) :
    (Rel.read c b (.virt vs)).copyRewrite sh f ins = .ok (.read c b (.virt vs), true) := by
  simp [Rel.copyRewrite, h₁, h₂]

/-- a virtual table of one row with the literal 7 -/
def exValues : Rel :=
  .read {} ⟨⟨["x"], 2, 0, [.prim .i32 2 0]⟩, .nil, .nil, none, none⟩ (.virt [[.lit exLit7]])

/-- **C48, negation.** Rewriting the 7 in the example table by a null leaves the 7. -/
theorem C48_negation : ¬ C48_statement := by
  intro h
  obtain ⟨h, -⟩ := h ⟨fun _ _ => false, fun _ _ => false⟩ exForgetFn exForget exValues []
    (exForget_replaces _) (by simp [HonestInputs])
  obtain ⟨s, h, -⟩ := h rfl
  rw [exValues, C48_negation_virtual _ _ _ _ _ _ rfl rfl] at h
  injection h with h
  have h' := congrArg (fun p : Rel × Bool => match p.1 with
    | .read _ _ (.virt [[.lit (.null _)]]) => true
    | _ => false) h
  exact Bool.noConfusion h'

/-- **C48, negation: sort fields of aggregate functions.** They are the old ones in every result. -/
theorem C48_negation_sorts (sh : Sharing) (f : RewriteFn) (c : RelCommon) (i : Rel)
    (ms : List Measure) (es : List Expr) (rs : List (List UInt32)) (a : Option Nat)
    (ins : List NewInput) (out : Rel) (s : Bool)
    (h : (Rel.aggregate c i ms es rs a).copyRewrite sh f ins = .ok (out, s)) :
    ∃ c' i' ms' es' rs' a', out = .aggregate c' i' ms' es' rs' a' ∧
      ms'.map (fun m => m.measure.map (·.sorts)) = ms.map (fun m => m.measure.map (·.sorts)) := by
  have key : ∀ (ms : List Measure) ms' b, rewriteMeasures f ms = .ok (ms', b) →
      ms'.map (fun m => m.measure.map (·.sorts)) = ms.map (fun m => m.measure.map (·.sorts)) := by
    intro ms
    induction ms with
    | nil => intro ms' b h; cases h; rfl
    | cons m ms ih =>
      intro ms' b h
      simp only [rewriteMeasures, Res.bind_eq_ok] at h
      obtain ⟨⟨flt, b₁⟩, -, ⟨fn, b₂⟩, h₂, ⟨ms₁, b₃⟩, h₃, h₄⟩ := h
      cases h₄
      simp only [List.map_cons, ih _ _ h₃, List.cons.injEq, and_true]
      obtain ⟨_ | fn₀, flt₀⟩ := m
      · simp only [rewriteAggFn] at h₂; cases h₂; rfl
      · simp only [rewriteAggFn, Res.bind_eq_ok] at h₂
        obtain ⟨⟨as, b₄⟩, -, h₂⟩ := h₂
        cases b₄ <;> cases h₂ <;> rfl
  match ins with
  | [(j, sj)] =>
    simp only [Rel.copyRewrite, Res.bind_eq_ok] at h
    obtain ⟨⟨es', s₁⟩, -, ⟨ms', s₂⟩, h₂, h⟩ := h
    split at h <;> cases h
    · exact ⟨_, _, _, _, _, _, rfl, rfl⟩
    · exact ⟨_, _, _, _, _, _, rfl, key _ _ _ h₂⟩
  | [] => cases h
  | _ :: _ :: _ => cases h

/-- The keys of a hash or merge join. -/
def Rel.joinKeys : Rel → List JoinKey
  | .hashJoin _ _ _ ks _ _ _ => ks
  | .mergeJoin _ _ _ ks _ _ _ => ks
  | _ => []

/-- **C48, negation: join keys.** They are the old ones in every result. -/
theorem C48_negation_keys (sh : Sharing) (f : RewriteFn) (r : Rel) (ins : List NewInput) (out : Rel)
    (s : Bool) (h : r.copyRewrite sh f ins = .ok (out, s)) (hk : r.joinKeys ≠ []) :
    out.joinKeys = r.joinKeys := by
  cases r with
  | hashJoin c l r ks p t a =>
    match ins with
    | [(l', sl), (r', sr)] =>
      simp only [Rel.copyRewrite, Res.bind_eq_ok] at h
      obtain ⟨⟨p', s₁⟩, -, h⟩ := h
      split at h <;> cases h <;> rfl
    | [] => cases h
    | [_] => cases h
    | _ :: _ :: _ :: _ => cases h
  | mergeJoin c l r ks p t a =>
    match ins with
    | [(l', sl), (r', sr)] =>
      simp only [Rel.copyRewrite, Res.bind_eq_ok] at h
      obtain ⟨⟨p', s₁⟩, -, h⟩ := h
      split at h <;> cases h <;> rfl
    | [] => cases h
    | [_] => cases h
    | _ :: _ :: _ :: _ => cases h
  | _ => exact absurd rfl hk

/-- The example's hash join, given a function that would replace its keys. -/
example : ∃ s out, exHash.copyRewrite ⟨fun _ _ => false, fun _ _ => false⟩
    (fun e => match e with | .fieldRef .. => .ok (.lit exLit7, false) | e => .ok (e, true))
    [(exSum, true), (exScan, false)] = .ok (out, s) ∧ out.joinKeys = exHash.joinKeys :=
  ⟨_, _, rfl, rfl⟩

/-- **C48, negation: number of inputs.** Reads and extension leaves ignore the inputs given, sets and
extensions with several inputs take any number, zero included. -/
theorem C48_negation_inputs (sh : Sharing) (c : RelCommon) (ins : List NewInput) :
    (∀ b names adv, (Rel.read c b (.named names adv)).copyRewrite sh (fun e => .ok (e, true)) ins =
      .ok (.read c b (.named names adv), true)) ∧
    (∀ f d, (Rel.extLeaf c d).copyRewrite sh f ins = .ok (.extLeaf c d, true)) ∧
    (∀ f is js op a, ∃ s, (Rel.set c is op a).copyRewrite sh f (js.map (·, false)) =
      .ok (.set c js op a, s)) ∧
    (∀ f is js d, ∃ s, (Rel.extMulti c is d).copyRewrite sh f (js.map (·, false)) =
      .ok (.extMulti c js d, s)) := by
  have hm : ∀ js : List Rel, (js.map (·, false)).map (·.1) = js := fun js => by
    rw [List.map_map]; exact List.map_id _
  refine ⟨fun _ _ _ => rfl, fun _ _ => rfl, fun f is js op a => ?_, fun f is js d => ?_⟩
  · cases hs : sameInputs (.set c is op a) (js.map (·, false)) with
    | false =>
      refine ⟨false, ?_⟩
      simp only [Rel.copyRewrite, hs, Rel.copy, hm, Bool.false_eq_true, if_false, Res.ok_bind]
    | true =>
      refine ⟨true, ?_⟩
      cases js with
      | nil =>
        cases is with
        | nil => rfl
        | cons i is => simp [sameInputs, Rel.getInputs] at hs
      | cons j js => simp [sameInputs] at hs
  · cases hs : sameInputs (.extMulti c is d) (js.map (·, false)) with
    | false =>
      refine ⟨false, ?_⟩
      simp only [Rel.copyRewrite, hs, Rel.copy, hm, Bool.false_eq_true, if_false, Res.ok_bind]
    | true =>
      refine ⟨true, ?_⟩
      cases js with
      | nil =>
        cases is with
        | nil => rfl
        | cons i is => simp [sameInputs, Rel.getInputs] at hs
      | cons j js => simp [sameInputs] at hs

/-- **C48, negation: absent expressions.** The function is called with nil where a relation has no
filter: a function that cannot be called with nil panics on a plain scan, on a join without a
post-join filter, and on a measure without a filter. -/
theorem C48_negation_nil (sh : Sharing) (f : RewriteFn) (hf : f .nil = .panic) (c : RelCommon) :
    (∀ s k be ins, (Rel.read c ⟨s, .nil, be, none, none⟩ k).copyRewrite sh f ins = .panic) ∧
    (∀ l r e e' s t a l' r', f e = .ok (e', s) →
      (Rel.join c l r e .nil t a).copyRewrite sh f [l', r'] = .panic) ∧
    (∀ i fn ms rs a i', (Rel.aggregate c i (⟨fn, .nil⟩ :: ms) [] rs a).copyRewrite sh f [i'] =
      .panic) := by
  refine ⟨fun s k be ins => by simp [Rel.copyRewrite, hf], ?_, ?_⟩
  · intro l r e e' s t a l' r' he
    obtain ⟨l', sl⟩ := l'
    obtain ⟨r', sr⟩ := r'
    simp [Rel.copyRewrite, hf, he]
  · intro i fn ms rs a i'
    obtain ⟨i', si⟩ := i'
    simp [Rel.copyRewrite, rewriteAll, rewriteMeasures, hf]

end Verif

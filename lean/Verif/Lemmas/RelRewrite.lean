import Verif.Spec.RelRewrite
import Verif.Lemmas.Rel
/-!
# Lemmas about rewriting expressions
-/

namespace Verif

theorem Replaces.sub {f : RewriteFn} {g : Expr → Expr} {es es' : List Expr} (h : Replaces f g es)
    (hs : ∀ e ∈ es', e ∈ es) : Replaces f g es' := fun e he => h e (hs e he)

theorem rewriteAll_replaces {f : RewriteFn} {g : Expr → Expr} :
    ∀ {es : List Expr}, Replaces f g es →
      ∃ same, rewriteAll f es = .ok (es.map g, same) ∧ (same = true → es.map g = es)
  | [], _ => ⟨true, rfl, fun _ => rfl⟩
  | e :: es, h => by
      obtain ⟨b, hb, hb'⟩ := h e (by simp)
      obtain ⟨b', hs, hs'⟩ := rewriteAll_replaces (h.sub (es' := es) (by simp +contextual))
      refine ⟨b && b', by simp [rewriteAll, hb, hs], ?_⟩
      intro hh
      simp only [Bool.and_eq_true] at hh
      simp [hb' hh.1, hs' hh.2]

theorem rewriteSorts_replaces {f : RewriteFn} {g : Expr → Expr} :
    ∀ {ss : List ESort}, Replaces f g (ss.map ESort.key) →
      ∃ same, rewriteSorts f ss = .ok (ss.map (ESort.mapExpr g), same) ∧
        (same = true → ss.map (ESort.mapExpr g) = ss)
  | [], _ => ⟨true, rfl, fun _ => rfl⟩
  | .mk e k :: ss, h => by
      obtain ⟨b, hb, hb'⟩ := h e (by simp [ESort.key])
      obtain ⟨b', hs, hs'⟩ := rewriteSorts_replaces (ss := ss)
        (h.sub (fun x hx => by rw [List.map_cons]; exact List.mem_cons_of_mem _ hx))
      refine ⟨b && b', by simp [rewriteSorts, hb, hs, ESort.mapExpr], ?_⟩
      intro hh
      simp only [Bool.and_eq_true] at hh
      simp [ESort.mapExpr, hb' hh.1, hs' hh.2]

theorem argOf_mapExpr {g : Expr → Expr} {e : Expr} (h : e.isNil = false) :
    EArg.mapExpr g (.expr e) = argOf (g e) := by
  have hm : EArg.mapExpr g (.expr e) = match g e with | .nil => .nil | e' => .expr e' := by
    cases e <;> first | rfl | simp [Expr.isNil] at h
  rw [hm]
  cases g e <;> simp [argOf, Expr.isNil]

theorem arg_exprs {e : Expr} (h : e.isNil = false) : EArg.ownExpr (.expr e) = [e] := by
  cases e <;> first | rfl | simp [Expr.isNil] at h

theorem isNil_eq {e : Expr} (h : e.isNil = true) : e = .nil := by
  cases e <;> simp [Expr.isNil] at h; rfl

theorem rewriteArgs_replaces {f : RewriteFn} {g : Expr → Expr} :
    ∀ {as : List EArg}, Replaces f g (as.flatMap EArg.ownExpr) →
      ∃ same, rewriteArgs f as = .ok (as.map (EArg.mapExpr g), same) ∧
        (same = true → as.map (EArg.mapExpr g) = as)
  | [], _ => ⟨true, rfl, fun _ => rfl⟩
  | a :: as, h => by
      obtain ⟨b', hs, hs'⟩ := rewriteArgs_replaces (as := as)
        (h.sub (fun x hx => by rw [List.flatMap_cons]; exact List.mem_append_right _ hx))
      cases a with
      | nil =>
        refine ⟨b', by simp [rewriteArgs, hs, EArg.mapExpr], fun hh => ?_⟩
        rw [List.map_cons, hs' hh]; rfl
      | type t =>
        refine ⟨b', by simp [rewriteArgs, hs, EArg.mapExpr], fun hh => ?_⟩
        rw [List.map_cons, hs' hh]; rfl
      | enum s =>
        refine ⟨b', by simp [rewriteArgs, hs, EArg.mapExpr], fun hh => ?_⟩
        rw [List.map_cons, hs' hh]; rfl
      | expr e =>
        cases hn : e.isNil with
        | true =>
          obtain rfl := isNil_eq hn
          refine ⟨b', by simp [rewriteArgs, hs, EArg.mapExpr, Expr.isNil], fun hh => ?_⟩
          rw [List.map_cons, hs' hh]; rfl
        | false =>
          obtain ⟨b, hb, hb'⟩ := h e (by simp [List.flatMap_cons, arg_exprs hn])
          refine ⟨b && b', by simp [rewriteArgs, hs, hb, hn, argOf_mapExpr hn], fun hh => ?_⟩
          simp only [Bool.and_eq_true] at hh
          rw [List.map_cons, hs' hh.2, argOf_mapExpr hn, hb' hh.1]
          simp [argOf, hn]

theorem map_mapExpr_id {g : Expr → Expr} :
    ∀ {ss : List ESort}, (∀ e ∈ ss.map ESort.key, g e = e) → ss.map (ESort.mapExpr g) = ss
  | [], _ => rfl
  | .mk e k :: ss, h => by
      have h₁ : g e = e := h e (by simp [ESort.key])
      rw [List.map_cons, map_mapExpr_id (ss := ss) (fun x hx => h x (by
        rw [List.map_cons]; exact List.mem_cons_of_mem _ hx))]
      simp [ESort.mapExpr, h₁]

theorem keys_mapExpr_id {g : Expr → Expr} :
    ∀ {ks : List JoinKey}, (∀ e ∈ ks.flatMap fun k => [k.left, k.right], g e = e) →
      ks.map (JoinKey.mapExpr g) = ks
  | [], _ => rfl
  | k :: ks, h => by
      rw [List.map_cons, keys_mapExpr_id (ks := ks) (fun x hx => h x (by
        rw [List.flatMap_cons]; exact List.mem_append_right _ hx))]
      have h₁ : g k.left = k.left := h _ (by simp [List.flatMap_cons])
      have h₂ : g k.right = k.right := h _ (by simp [List.flatMap_cons])
      simp [JoinKey.mapExpr, h₁, h₂]

theorem rewriteAggFn_replaces {f : RewriteFn} {g : Expr → Expr} {m : Option AggFn}
    (h : Replaces f g ((m.toList.flatMap (·.args)).flatMap EArg.ownExpr))
    (ho : ∀ e ∈ (m.toList.flatMap (·.sorts)).map ESort.key, g e = e) :
    ∃ same, rewriteAggFn f m = .ok (m.map fun fn =>
        { fn with args := fn.args.map (EArg.mapExpr g), sorts := fn.sorts.map (ESort.mapExpr g) },
        same) ∧
      (same = true → (m.map fun fn =>
        { fn with args := fn.args.map (EArg.mapExpr g), sorts := fn.sorts.map (ESort.mapExpr g) })
          = m) := by
  cases m with
  | none => exact ⟨true, rfl, fun _ => rfl⟩
  | some fn =>
    obtain ⟨a, ph, inv, args, sorts⟩ := fn
    simp only [Option.toList_some, List.flatMap_cons, List.flatMap_nil, List.append_nil] at h ho
    obtain ⟨b, hb, hb'⟩ := rewriteArgs_replaces h
    have hso := map_mapExpr_id ho
    cases b with
    | true => exact ⟨true, by simp [rewriteAggFn, hb, hso, hb'], fun _ => by simp [hso, hb']⟩
    | false => exact ⟨false, by simp [rewriteAggFn, hb, hso], by simp⟩

theorem rewriteMeasures_replaces {f : RewriteFn} {g : Expr → Expr} :
    ∀ {ms : List Measure},
      Replaces f g (ms.flatMap fun m =>
        m.filter :: (m.measure.toList.flatMap (·.args)).flatMap EArg.ownExpr) →
      (∀ e ∈ (ms.flatMap fun m => m.measure.toList.flatMap (·.sorts)).map ESort.key, g e = e) →
      ∃ same, rewriteMeasures f ms = .ok (ms.map (Measure.mapExpr g), same) ∧
        (same = true → ms.map (Measure.mapExpr g) = ms)
  | [], _, _ => ⟨true, rfl, fun _ => rfl⟩
  | m :: ms, h, ho => by
      simp only [List.flatMap_cons, List.map_append] at h ho
      obtain ⟨b, hb, hb'⟩ := h m.filter (by simp)
      obtain ⟨b₁, hm, hm'⟩ := rewriteAggFn_replaces (m := m.measure)
        (h.sub (fun x hx => List.mem_append_left _ (List.mem_cons_of_mem _ hx)))
        (fun x hx => ho x (List.mem_append_left _ hx))
      obtain ⟨b₂, hs, hs'⟩ := rewriteMeasures_replaces (ms := ms)
        (h.sub (fun x hx => List.mem_append_right _ hx))
        (fun x hx => ho x (List.mem_append_right _ hx))
      refine ⟨b && b₁ && b₂, by simp [rewriteMeasures, hb, hm, hs, Measure.mapExpr], ?_⟩
      intro hh
      simp only [Bool.and_eq_true] at hh
      obtain ⟨⟨h₁, h₂⟩, h₃⟩ := hh
      rw [List.map_cons, hs' h₃]
      simp only [Measure.mapExpr, hb' h₁, hm' h₂]

theorem map_id_of {g : Expr → Expr} {es : List Expr} (h : ∀ e ∈ es, g e = e) : es.map g = es := by
  induction es with
  | nil => rfl
  | cons e es ih => simp [h e (by simp), ih (fun x hx => h x (List.mem_cons_of_mem _ hx))]

theorem rows_id_of {g : Expr → Expr} {rows : List (List Expr)} (h : ∀ e ∈ rows.flatten, g e = e) :
    rows.map (List.map g) = rows := by
  induction rows with
  | nil => rfl
  | cons row rows ih =>
    simp only [List.flatten_cons] at h
    rw [List.map_cons, map_id_of (fun e he => h e (List.mem_append_left _ he)),
      ih (fun e he => h e (List.mem_append_right _ he))]

theorem sameInputs_eq {r : Rel} {ins : List NewInput} (hi : HonestInputs r ins)
    (hs : sameInputs r ins = true) : ins.map (·.1) = r.getInputs := by
  simp only [sameInputs, Bool.and_eq_true, beq_iff_eq, List.all_eq_true] at hs
  apply List.ext_getElem?
  intro k
  by_cases hk : k < ins.length
  · have hk' : k < r.getInputs.length := hs.1 ▸ hk
    have h₂ := hs.2 _ (List.getElem_mem hk)
    rw [List.getElem?_map, List.getElem?_eq_getElem hk, List.getElem?_eq_getElem hk']
    simp only [Option.map_some]
    refine congrArg some (hi _ _ k (List.getElem?_eq_getElem hk') ?_)
    rw [List.getElem?_eq_getElem hk]
    exact congrArg some (Prod.ext rfl h₂)
  · have hk' : r.getInputs.length ≤ k := by omega
    rw [List.getElem?_map, List.getElem?_eq_none (by omega), List.getElem?_eq_none hk']
    rfl

/-- Rewriting the rows of a virtual table: the new rows, and whether all new values equal the old
ones. -/
theorem rewriteTableRow_ok {sh : Sharing} {f : RewriteFn} {g : Expr → Expr} {q : Expr → Bool} :
    ∀ {es : List Expr} {u : Bool}, (∀ e ∈ es, (∃ b, f e = .ok (g e, b)) ∧
        (g e).equals sh e = .ok (q e)) →
      rewriteTableRow sh f u es = .ok (es.map g, u && es.all q)
  | [], u, _ => by simp [rewriteTableRow]
  | e :: es, u, h => by
      obtain ⟨⟨b, hb⟩, he⟩ := h e (by simp)
      have ih := fun u' => rewriteTableRow_ok (u := u') (fun x hx => h x (List.mem_cons_of_mem e hx))
      cases u <;> simp [rewriteTableRow, hb, he, ih]

theorem rewriteTableRows_ok {sh : Sharing} {f : RewriteFn} {g : Expr → Expr} {q : Expr → Bool} :
    ∀ {rows : List (List Expr)} {u : Bool}, (∀ e ∈ rows.flatten, (∃ b, f e = .ok (g e, b)) ∧
        (g e).equals sh e = .ok (q e)) →
      rewriteTableRows sh f u rows = .ok (rows.map (List.map g), u && rows.flatten.all q)
  | [], u, _ => by simp [rewriteTableRows]
  | row :: rows, u, h => by
      simp only [List.flatten_cons] at h
      have h₁ := fun u' => rewriteTableRow_ok (u := u') (fun x hx => h x (List.mem_append_left _ hx))
      have ih := fun u' => rewriteTableRows_ok (u := u') (fun x hx => h x (List.mem_append_right _ hx))
      simp [rewriteTableRows, h₁, ih, Bool.and_assoc]

end Verif

import Verif.Spec.Plan
import Verif.Lemmas.Rel
import Verif.Lemmas.GoMap
import Verif.Lemmas.Types
/-!
# Lemmas about plans
-/

namespace Verif

/-! ## Names -/

theorem labels_other (t : Ty) (ns : List String) (h1 : ∀ n v ts, t ≠ .struct n v ts)
    (h2 : ∀ n v e, t ≠ .list n v e) (h3 : ∀ n v k e, t ≠ .map n v k e) (h0 : nestedNameCount t = 0) :
    Labels t ns ↔ ns.length = nestedNameCount t := by
  rw [h0]
  constructor
  · intro h
    cases h with
    | struct _ _ _ _ h => exact absurd rfl (h1 _ _ _)
    | list _ _ _ _ h => exact absurd rfl (h2 _ _ _)
    | map _ _ _ _ _ _ _ _ => exact absurd rfl (h3 _ _ _ _)
    | other => rfl
  · intro h
    cases ns with
    | nil => exact .other _ h1 h2 h3
    | cons _ _ => simp at h

mutual
theorem labels_length : ∀ (t : Ty) (ns : List String), Labels t ns ↔ ns.length = nestedNameCount t
  | .struct n v ts, ns => by
      rw [nestedNameCount, ← labelsFields_length ts ns]
      constructor
      · intro h
        cases h with
        | struct _ _ _ _ h => exact h
        | other _ h => exact absurd rfl (h _ _ _)
      · exact .struct _ _ _ _
  | .list n v t, ns => by
      rw [nestedNameCount, ← labels_length t ns]
      constructor
      · intro h
        cases h with
        | list _ _ _ _ h => exact h
        | other _ _ h => exact absurd rfl (h _ _ _)
      · exact .list _ _ _ _
  | .map n v k e, ns => by
      rw [nestedNameCount]
      constructor
      · intro h
        cases h with
        | map _ _ _ _ a b ha hb =>
            rw [List.length_append, (labels_length k a).1 ha, (labels_length e b).1 hb]
        | other _ _ _ h => exact absurd rfl (h _ _ _ _)
      · intro h
        have := Labels.map n v k e (ns.take (nestedNameCount k)) (ns.drop (nestedNameCount k))
          ((labels_length k _).2 (by simp; omega)) ((labels_length e _).2 (by simp; omega))
        rwa [List.take_append_drop] at this
  | .prim .., ns => labels_other _ _ (by simp) (by simp) (by simp) (by simp [nestedNameCount])
  | .fixed .., ns => labels_other _ _ (by simp) (by simp) (by simp) (by simp [nestedNameCount])
  | .decimal .., ns => labels_other _ _ (by simp) (by simp) (by simp) (by simp [nestedNameCount])
  | .prec .., ns => labels_other _ _ (by simp) (by simp) (by simp) (by simp [nestedNameCount])
  | .intervalCompound .., ns =>
      labels_other _ _ (by simp) (by simp) (by simp) (by simp [nestedNameCount])
  | .intervalYearToMonth .., ns =>
      labels_other _ _ (by simp) (by simp) (by simp) (by simp [nestedNameCount])
  | .enum .., ns => labels_other _ _ (by simp) (by simp) (by simp) (by simp [nestedNameCount])
  | .func .., ns => labels_other _ _ (by simp) (by simp) (by simp) (by simp [nestedNameCount])
  | .udt .., ns => labels_other _ _ (by simp) (by simp) (by simp) (by simp [nestedNameCount])
theorem labelsFields_length : ∀ (ts : List Ty) (ns : List String),
    LabelsFields ts ns ↔ ns.length = depthFirstNameCount ts
  | [], ns => by
      rw [depthFirstNameCount]
      constructor
      · intro h; cases h; rfl
      · intro h
        cases ns with
        | nil => exact .nil
        | cons _ _ => simp at h
  | t :: ts, ns => by
      rw [depthFirstNameCount]
      constructor
      · intro h
        cases h with
        | cons name _ _ a b ha hb =>
            rw [List.length_cons, List.length_append, (labels_length t a).1 ha,
              (labelsFields_length ts b).1 hb]
            omega
      · intro h
        cases ns with
        | nil => simp at h; omega
        | cons name ns =>
            simp only [List.length_cons] at h
            have := LabelsFields.cons name t ts (ns.take (nestedNameCount t))
              (ns.drop (nestedNameCount t)) ((labels_length t _).2 (by simp; omega))
              ((labelsFields_length ts _).2 (by simp; omega))
            rwa [List.take_append_drop] at this
end

/-! ## Walking expressions -/

theorem walkList_eq : ∀ es : List Expr, Expr.walkList es = es.flatMap Expr.walk
  | [] => by rw [Expr.walkList]; rfl
  | e :: es => by rw [Expr.walkList, walkList_eq es, List.flatMap_cons]

theorem walkPairs_eq : ∀ ps : List EPair,
    EPair.walkList ps = (ps.flatMap EPair.exprs).flatMap Expr.walk
  | [] => by rw [EPair.walkList]; rfl
  | .mk a b :: ps => by rw [EPair.walkList, walkPairs_eq ps]; simp [EPair.exprs]

theorem walkCases_eq : ∀ cs : List ECase,
    ECase.walkList cs = (cs.flatMap ECase.exprs).flatMap Expr.walk
  | [] => by rw [ECase.walkList]; rfl
  | .mk l e :: cs => by rw [ECase.walkList, walkCases_eq cs]; simp [Expr.walk, ECase.exprs]

theorem walkRows_eq : ∀ rs : List ERow,
    ERow.walkList rs = (rs.flatMap ERow.exprs).flatMap Expr.walk
  | [] => by rw [ERow.walkList]; rfl
  | .mk es :: rs => by rw [ERow.walkList, walkRows_eq rs, walkList_eq]; simp [ERow.exprs]

theorem walkArgs_eq : ∀ as : List EArg,
    EArg.walkList as = (as.flatMap EArg.exprs).flatMap Expr.walk
  | [] => by rw [EArg.walkList]; rfl
  | .expr e :: as => by rw [EArg.walkList, walkArgs_eq as]; simp [EArg.exprs]
  | .nil :: as => by rw [EArg.walkList, walkArgs_eq as]; simp [EArg.exprs]
  | .type t :: as => by rw [EArg.walkList, walkArgs_eq as]; simp [EArg.exprs]
  | .enum s :: as => by rw [EArg.walkList, walkArgs_eq as]; simp [EArg.exprs]

theorem walk_unfold (e : Expr) (h : e.isNil = false) :
    e.walk = e :: e.shownParts.flatMap Expr.walk := by
  cases e <;> simp_all [Expr.walk, Expr.shownParts, Expr.parts, walkList_eq, walkPairs_eq,
    walkCases_eq, walkRows_eq, walkArgs_eq, Expr.isNil]

theorem walk_nil (e : Expr) (h : e.isNil = true) : e.walk = [] := by
  cases e <;> simp_all [Expr.walk, Expr.isNil]

theorem shownParts_nil (e : Expr) (h : e.isNil = true) : e.shownParts = [] := by
  cases e <;> simp_all [Expr.shownParts, Expr.parts, Expr.isNil]

theorem mem_le_sum {n : Nat} : ∀ {l : List Nat}, n ∈ l → n ≤ l.sum
  | a :: l, h => by
      rw [List.sum_cons]
      rcases List.mem_cons.1 h with rfl | h
      · omega
      · have := mem_le_sum h; omega

theorem shown_of_walk (x : Expr) : ∀ (n : Nat) (e : Expr), e.walk.length ≤ n → x ∈ e.walk →
    Expr.Shown x e
  | 0, e, hl, hx => by
      rw [List.length_eq_zero_iff.1 (by omega : e.walk.length = 0)] at hx
      cases hx
  | n + 1, e, hl, hx => by
      cases hn : e.isNil with
      | true => rw [walk_nil e hn] at hx; cases hx
      | false =>
          rw [walk_unfold e hn, List.mem_cons] at hx
          rcases hx with rfl | hx
          · exact .refl
          · obtain ⟨c, hc, hxc⟩ := List.mem_flatMap.1 hx
            refine .part c e hc (shown_of_walk x n c ?_ hxc)
            rw [walk_unfold e hn, List.length_cons, List.length_flatMap] at hl
            have := mem_le_sum (List.mem_map.2 ⟨c, hc, rfl⟩ :
              c.walk.length ∈ e.shownParts.map fun a => a.walk.length)
            omega

theorem walk_of_shown {x e : Expr} (hx : x.isNil = false) (h : Expr.Shown x e) : x ∈ e.walk := by
  induction h with
  | refl => rw [walk_unfold x hx]; simp
  | part c e hc _ ih =>
      cases hn : e.isNil with
      | true => rw [shownParts_nil e hn] at hc; cases hc
      | false =>
          rw [walk_unfold e hn]
          exact List.mem_cons_of_mem _ (List.mem_flatMap.2 ⟨c, hc, ih⟩)

theorem mem_walk {x e : Expr} (hx : x.isNil = false) : x ∈ e.walk ↔ Expr.Shown x e :=
  ⟨shown_of_walk x _ e (Nat.le_refl _), walk_of_shown hx⟩

theorem shownParts_sub (c e : Expr) (h : c ∈ e.shownParts) : c ∈ e.parts := by
  cases e <;> simp_all [Expr.shownParts, Expr.parts]

theorem Expr.Shown.within {x e : Expr} (h : Expr.Shown x e) : Expr.Within x e := by
  induction h with
  | refl => exact .refl
  | part c e hc _ ih => exact .part c e (shownParts_sub c e hc) ih

/-! ## Collecting parameters -/

mutual
/-- all expressions walked in a relation tree, in order -/
def Rel.allWalked : Rel → List Expr
  | .read c b k => (Rel.read c b k).walkedExprs.flatMap Expr.walk
  | .project c i es a => i.allWalked ++ (Rel.project c i es a).walkedExprs.flatMap Expr.walk
  | .join c l r e p t a =>
      l.allWalked ++ r.allWalked ++ (Rel.join c l r e p t a).walkedExprs.flatMap Expr.walk
  | .cross c l r a => l.allWalked ++ r.allWalked ++ (Rel.cross c l r a).walkedExprs.flatMap Expr.walk
  | .fetch c i o n a => i.allWalked ++ (Rel.fetch c i o n a).walkedExprs.flatMap Expr.walk
  | .aggregate c i ms es rs a =>
      i.allWalked ++ (Rel.aggregate c i ms es rs a).walkedExprs.flatMap Expr.walk
  | .sort c i ss a => i.allWalked ++ (Rel.sort c i ss a).walkedExprs.flatMap Expr.walk
  | .filter c i e a => i.allWalked ++ (Rel.filter c i e a).walkedExprs.flatMap Expr.walk
  | .set c is op a => Rel.allWalkedList is ++ (Rel.set c is op a).walkedExprs.flatMap Expr.walk
  | .extSingle c i d => i.allWalked ++ (Rel.extSingle c i d).walkedExprs.flatMap Expr.walk
  | .extLeaf c d => (Rel.extLeaf c d).walkedExprs.flatMap Expr.walk
  | .extMulti c is d => Rel.allWalkedList is ++ (Rel.extMulti c is d).walkedExprs.flatMap Expr.walk
  | .hashJoin c l r ks p t a =>
      l.allWalked ++ r.allWalked ++ (Rel.hashJoin c l r ks p t a).walkedExprs.flatMap Expr.walk
  | .mergeJoin c l r ks p t a =>
      l.allWalked ++ r.allWalked ++ (Rel.mergeJoin c l r ks p t a).walkedExprs.flatMap Expr.walk
  | .write c ns a s op i m => i.allWalked ++ (Rel.write c ns a s op i m).walkedExprs.flatMap Expr.walk
def Rel.allWalkedList : List Rel → List Expr
  | [] => []
  | i :: is => i.allWalked ++ Rel.allWalkedList is
end

mutual
theorem collect_eq : ∀ (r : Rel) (out : GoMap UInt32 Ty),
    r.collectParams out = r.allWalked.foldl noteParam out
  | .read .., out => by simp only [Rel.collectParams, Rel.allWalked, Rel.noteOwn]
  | .project _ i _ _, out => by
      simp only [Rel.collectParams, Rel.allWalked, Rel.noteOwn, List.foldl_append, collect_eq i]
  | .join _ l r _ _ _ _, out => by
      simp only [Rel.collectParams, Rel.allWalked, Rel.noteOwn, List.foldl_append, collect_eq l,
        collect_eq r]
  | .cross _ l r _, out => by
      simp only [Rel.collectParams, Rel.allWalked, Rel.noteOwn, List.foldl_append, collect_eq l,
        collect_eq r]
  | .fetch _ i _ _ _, out => by
      simp only [Rel.collectParams, Rel.allWalked, Rel.noteOwn, List.foldl_append, collect_eq i]
  | .aggregate _ i _ _ _ _, out => by
      simp only [Rel.collectParams, Rel.allWalked, Rel.noteOwn, List.foldl_append, collect_eq i]
  | .sort _ i _ _, out => by
      simp only [Rel.collectParams, Rel.allWalked, Rel.noteOwn, List.foldl_append, collect_eq i]
  | .filter _ i _ _, out => by
      simp only [Rel.collectParams, Rel.allWalked, Rel.noteOwn, List.foldl_append, collect_eq i]
  | .set _ is _ _, out => by
      simp only [Rel.collectParams, Rel.allWalked, Rel.noteOwn, List.foldl_append, collectList_eq is]
  | .extSingle _ i _, out => by
      simp only [Rel.collectParams, Rel.allWalked, Rel.noteOwn, List.foldl_append, collect_eq i]
  | .extLeaf .., out => by simp only [Rel.collectParams, Rel.allWalked, Rel.noteOwn]
  | .extMulti _ is _, out => by
      simp only [Rel.collectParams, Rel.allWalked, Rel.noteOwn, List.foldl_append, collectList_eq is]
  | .hashJoin _ l r _ _ _ _, out => by
      simp only [Rel.collectParams, Rel.allWalked, Rel.noteOwn, List.foldl_append, collect_eq l,
        collect_eq r]
  | .mergeJoin _ l r _ _ _ _, out => by
      simp only [Rel.collectParams, Rel.allWalked, Rel.noteOwn, List.foldl_append, collect_eq l,
        collect_eq r]
  | .write _ _ _ _ _ i _, out => by
      simp only [Rel.collectParams, Rel.allWalked, Rel.noteOwn, List.foldl_append, collect_eq i]
theorem collectList_eq : ∀ (is : List Rel) (out : GoMap UInt32 Ty),
    Rel.collectParamsList out is = (Rel.allWalkedList is).foldl noteParam out
  | [], out => by simp [Rel.collectParamsList, Rel.allWalkedList]
  | i :: is, out => by
      simp only [Rel.collectParamsList, Rel.allWalkedList, List.foldl_append, collect_eq i,
        collectList_eq is]
end

theorem allWalkedList_eq : ∀ is : List Rel, Rel.allWalkedList is = is.flatMap Rel.allWalked
  | [] => by rw [Rel.allWalkedList]; rfl
  | i :: is => by rw [Rel.allWalkedList, allWalkedList_eq is, List.flatMap_cons]

theorem allWalked_eq (r : Rel) :
    r.allWalked = r.getInputs.flatMap Rel.allWalked ++ r.walkedExprs.flatMap Expr.walk := by
  cases r <;> simp [Rel.allWalked, Rel.getInputs, allWalkedList_eq]

theorem own_of_walked {r : Rel} {e : Expr} {t : Ty} {p : UInt32} (h : e ∈ r.walkedExprs)
    (hx : .dynParam t p ∈ e.walk) : r.Searched ∧ e ∈ r.ownExprs := by
  cases r <;> simp only [Rel.walkedExprs, List.not_mem_nil] at h <;>
    simp only [Rel.Searched, Rel.ownExprs, true_and]
  · exact h
  · simp only [List.mem_cons, List.not_mem_nil, or_false] at h ⊢
    rcases h with h | h
    · exact .inl h
    · split at h
      · subst h; simp [defFilter, Expr.walk] at hx
      · exact .inr h
  · exact h
  · exact h

theorem walked_of_own {r : Rel} {e : Expr} {t : Ty} {p : UInt32} (hs : r.Searched)
    (h : e ∈ r.ownExprs) (hx : .dynParam t p ∈ e.walk) : e ∈ r.walkedExprs := by
  cases r <;> simp only [Rel.Searched] at hs <;> simp only [Rel.ownExprs] at h <;>
    simp only [Rel.walkedExprs]
  · exact h
  · simp only [List.mem_cons, List.not_mem_nil, or_false] at h ⊢
    rcases h with h | h
    · exact .inl h
    · right
      split
      · rename_i hn
        subst h
        rw [walk_nil e hn] at hx; cases hx
      · exact h
  · exact h
  · exact h

theorem own_shown {t : Ty} {p : UInt32} {r : Rel}
    (h : .dynParam t p ∈ r.walkedExprs.flatMap Expr.walk) : ShownIn p t r := by
  obtain ⟨e, he, hx⟩ := List.mem_flatMap.1 h
  obtain ⟨hs, ho⟩ := own_of_walked he hx
  exact .here r e hs ho ((mem_walk (by rfl)).1 hx)

mutual
theorem shown_of_allWalked {t : Ty} {p : UInt32} : ∀ r : Rel, .dynParam t p ∈ r.allWalked →
    ShownIn p t r
  | .read c b k, h => own_shown (by simpa [Rel.allWalked] using h)
  | .project c i es a, h => by
      rw [Rel.allWalked, List.mem_append] at h
      rcases h with h | h
      · exact .input _ i (by simp [Rel.getInputs]) (shown_of_allWalked i h)
      · exact own_shown h
  | .join c l r e q j a, h => by
      rw [Rel.allWalked, List.mem_append, List.mem_append] at h
      rcases h with (h | h) | h
      · exact .input _ l (by simp [Rel.getInputs]) (shown_of_allWalked l h)
      · exact .input _ r (by simp [Rel.getInputs]) (shown_of_allWalked r h)
      · exact own_shown h
  | .cross c l r a, h => by
      rw [Rel.allWalked, List.mem_append, List.mem_append] at h
      rcases h with (h | h) | h
      · exact .input _ l (by simp [Rel.getInputs]) (shown_of_allWalked l h)
      · exact .input _ r (by simp [Rel.getInputs]) (shown_of_allWalked r h)
      · exact own_shown h
  | .fetch c i o n a, h => by
      rw [Rel.allWalked, List.mem_append] at h
      rcases h with h | h
      · exact .input _ i (by simp [Rel.getInputs]) (shown_of_allWalked i h)
      · exact own_shown h
  | .aggregate c i ms es rs a, h => by
      rw [Rel.allWalked, List.mem_append] at h
      rcases h with h | h
      · exact .input _ i (by simp [Rel.getInputs]) (shown_of_allWalked i h)
      · exact own_shown h
  | .sort c i ss a, h => by
      rw [Rel.allWalked, List.mem_append] at h
      rcases h with h | h
      · exact .input _ i (by simp [Rel.getInputs]) (shown_of_allWalked i h)
      · exact own_shown h
  | .filter c i e a, h => by
      rw [Rel.allWalked, List.mem_append] at h
      rcases h with h | h
      · exact .input _ i (by simp [Rel.getInputs]) (shown_of_allWalked i h)
      · exact own_shown h
  | .set c is op a, h => by
      rw [Rel.allWalked, List.mem_append] at h
      rcases h with h | h
      · obtain ⟨i, hi, hs⟩ := shown_of_allWalkedList is h
        exact .input _ i hi hs
      · exact own_shown h
  | .extSingle c i d, h => by
      rw [Rel.allWalked, List.mem_append] at h
      rcases h with h | h
      · exact .input _ i (by simp [Rel.getInputs]) (shown_of_allWalked i h)
      · exact own_shown h
  | .extLeaf c d, h => own_shown (by simpa [Rel.allWalked] using h)
  | .extMulti c is d, h => by
      rw [Rel.allWalked, List.mem_append] at h
      rcases h with h | h
      · obtain ⟨i, hi, hs⟩ := shown_of_allWalkedList is h
        exact .input _ i hi hs
      · exact own_shown h
  | .hashJoin c l r ks q j a, h => by
      rw [Rel.allWalked, List.mem_append, List.mem_append] at h
      rcases h with (h | h) | h
      · exact .input _ l (by simp [Rel.getInputs]) (shown_of_allWalked l h)
      · exact .input _ r (by simp [Rel.getInputs]) (shown_of_allWalked r h)
      · exact own_shown h
  | .mergeJoin c l r ks q j a, h => by
      rw [Rel.allWalked, List.mem_append, List.mem_append] at h
      rcases h with (h | h) | h
      · exact .input _ l (by simp [Rel.getInputs]) (shown_of_allWalked l h)
      · exact .input _ r (by simp [Rel.getInputs]) (shown_of_allWalked r h)
      · exact own_shown h
  | .write c ns a s op i m, h => by
      rw [Rel.allWalked, List.mem_append] at h
      rcases h with h | h
      · exact .input _ i (by simp [Rel.getInputs]) (shown_of_allWalked i h)
      · exact own_shown h
theorem shown_of_allWalkedList {t : Ty} {p : UInt32} : ∀ is : List Rel,
    .dynParam t p ∈ Rel.allWalkedList is → ∃ i ∈ is, ShownIn p t i
  | [], h => by simp [Rel.allWalkedList] at h
  | i :: is, h => by
      rw [Rel.allWalkedList, List.mem_append] at h
      rcases h with h | h
      · exact ⟨i, by simp, shown_of_allWalked i h⟩
      · obtain ⟨j, hj, hs⟩ := shown_of_allWalkedList is h
        exact ⟨j, by simp [hj], hs⟩
end

theorem allWalked_of_shown {t : Ty} {p : UInt32} {r : Rel} (h : ShownIn p t r) :
    .dynParam t p ∈ r.allWalked := by
  induction h with
  | here r e hs he hx =>
      rw [allWalked_eq, List.mem_append]
      have hx' := (mem_walk (by rfl)).2 hx
      exact .inr (List.mem_flatMap.2 ⟨e, walked_of_own hs he hx', hx'⟩)
  | input r i hi _ ih =>
      rw [allWalked_eq, List.mem_append]
      exact .inl (List.mem_flatMap.2 ⟨i, hi, ih⟩)

theorem ShownIn.occurs {t : Ty} {p : UInt32} {r : Rel} (h : ShownIn p t r) : OccursIn p t r := by
  induction h with
  | here r e _ he hx => exact .here r e he hx.within
  | input r i hi _ ih => exact .input r i hi ih

theorem noteAll_sound {p : UInt32} {t : Ty} : ∀ (l : List Expr) (out : GoMap UInt32 Ty),
    (l.foldl noteParam out).get p = some t → out.get p = some t ∨ .dynParam t p ∈ l
  | [], out, h => .inl h
  | e :: l, out, h => by
      rcases noteAll_sound l _ h with h | h
      · cases e <;> simp only [noteParam] at h <;> try exact .inl h
        rw [GoMap.get_set] at h
        split at h
        · simp_all
        · exact .inl h
      · exact .inr (List.mem_cons_of_mem _ h)

theorem noteAll_mono {p : UInt32} : ∀ (l : List Expr) (out : GoMap UInt32 Ty),
    (∃ t, out.get p = some t) → ∃ t, (l.foldl noteParam out).get p = some t
  | [], out, h => h
  | e :: l, out, h => by
      refine noteAll_mono l _ ?_
      cases e <;> simp only [noteParam] <;> try exact h
      rw [GoMap.get_set]
      split
      · exact ⟨_, rfl⟩
      · exact h

theorem noteAll_complete {p : UInt32} {t : Ty} : ∀ (l : List Expr) (out : GoMap UInt32 Ty),
    .dynParam t p ∈ l → ∃ t, (l.foldl noteParam out).get p = some t
  | e :: l, out, h => by
      rcases List.mem_cons.1 h with rfl | h
      · exact noteAll_mono l _ ⟨t, by simp [noteParam, GoMap.get_set]⟩
      · exact noteAll_complete l _ h

/-- the type noted for a parameter is one it is shown with -/
theorem collect_sound {r : Rel} {p : UInt32} {t : Ty}
    (h : (r.collectParams GoMap.empty).get p = some t) : ShownIn p t r := by
  rw [collect_eq] at h
  rcases noteAll_sound _ _ h with h | h
  · simp at h
  · exact shown_of_allWalked r h

theorem collect_complete {r : Rel} {p : UInt32} {t : Ty} (h : ShownIn p t r) :
    ∃ t, (r.collectParams GoMap.empty).get p = some t := by
  rw [collect_eq]
  exact noteAll_complete _ _ (allWalked_of_shown h)

/-! ## Checking bindings -/

theorem fits_iff {l : Lit} {t : Ty} {u : Ty} (hu : l.getType = .ok u) (hp : u.PlanType) :
    (u.withNullability NullabilityUnspecified).equals (t.withNullability NullabilityUnspecified) =
      .ok true ↔ FitsType l t := by
  have hp' : (u.withNullability NullabilityUnspecified).PlanType := by
    cases u <;> simpa [Ty.withNullability, Ty.PlanType] using hp
  rw [equals_true_iff hp']
  constructor
  · exact fun h => ⟨u, hu, h⟩
  · rintro ⟨u', hu', h⟩
    rw [hu] at hu'
    cases hu'
    exact h

theorem checkBindings_iff {m : GoMap UInt32 Ty} : ∀ (bs : List Binding),
    (∀ b ∈ bs, b.value.Typed) →
    (checkBindings m bs = .ok () ↔ ∀ b ∈ bs, ∃ t, m.get b.anchor = some t ∧ FitsType b.value t) ∧
    checkBindings m bs ≠ .panic
  | [], _ => by simp [checkBindings]
  | b :: bs, h => by
      obtain ⟨ih1, ih2⟩ := checkBindings_iff (m := m) bs (fun b hb => h b (List.mem_cons_of_mem _ hb))
      obtain ⟨u, hu, hp⟩ := h b (by simp)
      rw [checkBindings]
      cases hm : m.get b.anchor with
      | none => simp [hm]
      | some t =>
          have hp' : (u.withNullability NullabilityUnspecified).PlanType := by
            cases u <;> simpa [Ty.withNullability, Ty.PlanType] using hp
          obtain ⟨r, hr, _⟩ := equals_spec _ (t.withNullability NullabilityUnspecified) hp'
          have hf := fits_iff (t := t) hu hp
          rw [hr] at hf
          simp only [hu, Res.ok_bind, hr]
          cases r
          · have hnf : ¬ FitsType b.value t := fun h => by simpa using hf.2 h
            simp [hm, hnf]
          · have hft := hf.1 rfl
            simp [hm, hft, ih1, ih2]

/-! ## Building -/

theorem storeOthers_eq : ∀ (os : List (Option Rel)) (pre rs : List Relation), os.length ≤ rs.length →
    storeOthers (pre ++ rs) pre.length os =
      .ok (pre ++ List.zipWith (fun r o => { r with rel := o }) rs os ++ rs.drop os.length)
  | [], pre, rs, _ => by simp [storeOthers]
  | o :: os, pre, [], h => by simp at h
  | o :: os, pre, r :: rs, h => by
      have hset : (pre ++ r :: rs).set pre.length { r with rel := o } =
          (pre ++ [{ r with rel := o }]) ++ rs := by simp
      have ih := storeOthers_eq os (pre ++ [{ r with rel := o }]) rs (by simpa using h)
      rw [storeOthers]
      simp only [List.getElem?_append_right (Nat.le_refl _), Nat.sub_self, List.getElem?_cons_zero,
        hset]
      rw [List.length_append, List.length_singleton] at ih
      rw [ih]
      simp

theorem zipWith_replicate (os : List (Option Rel)) (n : Nat) (h : os.length ≤ n) :
    List.zipWith (fun (r : Relation) o => { r with rel := o }) (List.replicate n {}) os =
      os.map (fun o => { rel := o }) := by
  induction os generalizing n with
  | nil => simp
  | cons o os ih =>
      cases n with
      | zero => simp at h
      | succ n => simp [List.replicate_succ, ih n (by simpa using h)]

/-- the relations of a built plan -/
theorem stored_relations (root : Root) (others : List (Option Rel)) :
    storeOthers ({ root := some root } :: List.replicate others.length {}) 0 others =
      .ok (match others with
        | [] => [{ root := some root }]
        | o :: os => { root := some root, rel := o } :: (os.map (fun o => { rel := o }) ++ [{}])) := by
  have := storeOthers_eq others [] ({ root := some root } :: List.replicate others.length {})
    (by simp)
  simp only [List.nil_append, List.length_nil] at this
  rw [this]
  cases others with
  | nil => simp
  | cons o os =>
      rw [List.zipWith_cons_cons, zipWith_replicate _ _ (by simp)]
      simp [List.replicate_succ']

theorem planWithBindings_ok {root : Option Rel} {names urls : List String} {bs : List Binding}
    {others : List (Option Rel)} {p : Plan} :
    planWithBindings root names urls bs others = .ok p ↔
      ∃ r ts, root = some r ∧ r.recordType = .ok ts ∧ LabelsFields ts names ∧
        validateBindings r bs = .ok () ∧
        storeOthers ({ root := some ⟨r, names⟩ } :: List.replicate others.length {}) 0 others =
          .ok p.relations ∧ p.bindings = bs ∧ p.urls = urls := by
  unfold planWithBindings
  cases root with
  | none => simp
  | some r =>
      simp only [Res.bind_eq_ok, validateRootNames]
      constructor
      · rintro ⟨ts, hts, _, hn, _, hb, rels, hs, hp⟩
        cases hp
        refine ⟨r, ts, rfl, hts, ?_, hb, hs, rfl, rfl⟩
        rw [labelsFields_length]
        by_contra hne
        simp [hne] at hn
      · rintro ⟨r', ts, hr, hts, hn, hb, hs, h1, h2⟩
        cases hr
        rw [labelsFields_length] at hn
        refine ⟨ts, hts, (), by simp [hn], (), hb, _, hs, ?_⟩
        cases p
        simp_all

end Verif

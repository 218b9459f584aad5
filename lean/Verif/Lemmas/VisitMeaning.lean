import Verif.Lemmas.VisitRec
import Verif.Lemmas.RowsSame
/-! Helper lemmas: replacing the children of an expression by others of the same meaning. -/

namespace Verif

/-! ### equal replacements -/

theorem visited_congr {F G : Expr → Expr} (e : Expr) (h : ∀ c ∈ e.kids, F c = G c) :
    e.visited F = e.visited G := by
  have pairs : ∀ ps : List EPair, (∀ x y, EPair.mk x y ∈ ps → F x = G x ∧ F y = G y) →
      ps.map (EPair.visited F) = ps.map (EPair.visited G) := by
    intro ps hp
    refine List.map_inj_left.2 ?_
    rintro ⟨x, y⟩ hm
    simp [EPair.visited, hp x y hm]
  have args : ∀ as : List EArg, (∀ x, EArg.expr x ∈ as → F x = G x) →
      as.map (EArg.visited F) = as.map (EArg.visited G) := by
    intro as ha
    refine List.map_inj_left.2 fun x hm => ?_
    cases x <;> simp only [EArg.visited]
    rw [ha _ hm]
  cases e <;> simp only [Expr.visited, Expr.kids] at h ⊢
  case ifThen ifs els =>
    rw [h els (by simp), pairs]
    intro x y hm
    exact ⟨h x (List.mem_append_left _ (List.mem_flatMap.2 ⟨_, hm, by simp⟩)),
      h y (List.mem_append_left _ (List.mem_flatMap.2 ⟨_, hm, by simp⟩))⟩
  case cast => rw [h _ (by simp)]
  case switch e cs els =>
    rw [h e (by simp), h els (by simp)]
    congr 1
    refine List.map_inj_left.2 ?_
    rintro ⟨l, r⟩ hm
    rw [ECase.visited, ECase.visited,
      h (.lit l) (List.mem_append_left _ (List.mem_cons_of_mem _ (List.mem_flatMap.2 ⟨_, hm, by simp⟩))),
      h r (List.mem_append_left _ (List.mem_cons_of_mem _ (List.mem_flatMap.2 ⟨_, hm, by simp⟩)))]
  case singularOr e os =>
    rw [h e (by simp), List.map_inj_left.2 fun x hx => h x (by simp [hx])]
  case multiOr es os =>
    rw [List.map_inj_left.2 fun x hx => h x (List.mem_append_left _ hx)]
    congr 1
    refine List.map_inj_left.2 ?_
    rintro ⟨rs⟩ hm
    rw [ERow.visited, ERow.visited, List.map_inj_left.2 fun x hx =>
      h x (List.mem_append_right _ (List.mem_flatMap.2 ⟨_, hm, hx⟩))]
  case mapE n v kvs =>
    rw [pairs]
    intro x y hm
    exact ⟨h x (List.mem_flatMap.2 ⟨_, hm, by simp⟩), h y (List.mem_flatMap.2 ⟨_, hm, by simp⟩)⟩
  case structE => rw [List.map_inj_left.2 fun x hx => h x hx]
  case listE => rw [List.map_inj_left.2 fun x hx => h x hx]
  case scalar f as => rw [args as fun x hx => h x (List.mem_flatMap.2 ⟨_, hx, by simp⟩)]
  case window f w as ss ps => rw [args as fun x hx => h x (List.mem_flatMap.2 ⟨_, hx, by simp⟩)]
  case lambda => rw [h _ (by simp)]
  case inPredicate => rw [List.map_inj_left.2 fun x hx => h x hx]
  case setComparison => rw [h _ (by simp)]

theorem everywhereList_map (F : Expr → Expr) : ∀ es, Expr.everywhereList F es = es.map (Expr.everywhere F)
  | [] => rfl
  | e :: es => by simp only [Expr.everywhereList, List.map_cons, everywhereList_map F es]
theorem pairEverywhere_map (F : Expr → Expr) :
    ∀ ps, EPair.everywhere F ps = ps.map (EPair.visited (Expr.everywhere F))
  | [] => rfl
  | .mk a b :: ps => by simp only [EPair.everywhere, List.map_cons, EPair.visited, pairEverywhere_map F ps]
theorem caseEverywhere_map (F : Expr → Expr) :
    ∀ cs, ECase.everywhere F cs = cs.map (ECase.visited (Expr.everywhere F))
  | [] => rfl
  | .mk l e :: cs => by
      simp only [ECase.everywhere, List.map_cons, ECase.visited, caseEverywhere_map F cs, Expr.everywhere]
theorem rowEverywhere_map (F : Expr → Expr) :
    ∀ rs, ERow.everywhere F rs = rs.map (ERow.visited (Expr.everywhere F))
  | [] => rfl
  | .mk es :: rs => by
      simp only [ERow.everywhere, List.map_cons, ERow.visited, rowEverywhere_map F rs, everywhereList_map]
theorem argEverywhere_map (F : Expr → Expr) :
    ∀ as, EArg.everywhere F as = as.map (EArg.visited (Expr.everywhere F))
  | [] => rfl
  | x :: as => by
      cases x <;> simp only [EArg.everywhere, List.map_cons, EArg.visited, argEverywhere_map F as]

theorem everywhere_eq (F : Expr → Expr) (e : Expr) (he : e ≠ .nil) (hh : ¬ e.Hides) :
    e.everywhere F = F (e.visited (Expr.everywhere F)) := by
  cases e with
  | nil => exact absurd rfl he
  | fieldRef root ref t => cases root <;> simp [Expr.Hides] at hh <;> simp only [Expr.everywhere, ERoot.everywhere, Expr.visited]
  | window f w as ss ps =>
    simp only [Expr.Hides, ne_eq, not_or, Decidable.not_not] at hh
    obtain ⟨rfl, rfl⟩ := hh
    simp only [Expr.everywhere, ESort.everywhere, Expr.everywhereList, Expr.visited, argEverywhere_map]
  | _ => simp only [Expr.everywhere, Expr.visited, everywhereList_map, pairEverywhere_map,
      caseEverywhere_map, rowEverywhere_map, argEverywhere_map]

theorem everywhere_bottomUp (F : Expr → Expr) : ∀ (n : Nat) (e : Expr), sizeOf e < n →
    (∀ d, Below e d → ¬ d.Hides) → e.bottomUp F = e.everywhere F := by
  intro n
  induction n with
  | zero => intro e h; omega
  | succ n ih =>
    intro e hn hh
    by_cases he : e = .nil
    · subst he; rfl
    · rw [bottomUp_eq F e he, everywhere_eq F e he (hh e (.refl e)), visited_congr e]
      intro c hc
      have := kids_smaller e c hc
      exact ih c (by omega) fun d hd => hh d (.kid e c d hc hd)

/-! ### replacements of the same meaning -/

theorem sameMeaning_trans {a b c : Expr} (h : a.SameMeaning b) (h' : b.SameMeaning c) : a.SameMeaning c :=
  ⟨h.1.trans h'.1, h'.2.1.trans h.2.1, fun w v => (h'.2.2 w v).trans (h.2.2 w v)⟩

section
variable {F : Expr → Expr} {w : World}

theorem list_same : ∀ (es : List Expr) (_ : ∀ e ∈ es, e.SameMeaning (F e)) (vs : List Val),
    Expr.YieldsList w (es.map F) vs ↔ Expr.YieldsList w es vs
  | [], _, _ => Iff.rfl
  | e :: es, h, vs => by
      simp only [List.map_cons, Expr.YieldsList, (h e (by simp)).2.2 w,
        list_same es fun e he => h e (by simp [he])]

theorem rows_same : ∀ (rs : List ERow) (_ : ∀ es, .mk es ∈ rs → ∀ e ∈ es, e.SameMeaning (F e))
    (vs : List (List Val)), ERow.YieldsList w (rs.map (ERow.visited F)) vs ↔ ERow.YieldsList w rs vs
  | [], _, _ => Iff.rfl
  | .mk es :: rs, h, vs => by
      simp only [List.map_cons, ERow.YieldsList, ERow.visited, list_same es (h es (by simp)),
        rows_same rs fun es he => h es (by simp [he])]

theorem pairs_same : ∀ (ps : List EPair)
    (_ : ∀ x y, .mk x y ∈ ps → x.SameMeaning (F x) ∧ y.SameMeaning (F y)) (ks vs : List Val),
    EPair.YieldsAll w (ps.map (EPair.visited F)) ks vs ↔ EPair.YieldsAll w ps ks vs
  | [], _, _, _ => Iff.rfl
  | .mk x y :: ps, h, ks, vs => by
      simp only [List.map_cons, EPair.YieldsAll, EPair.visited, (h x y (by simp)).1.2.2 w,
        (h x y (by simp)).2.2.2 w, pairs_same ps fun x y he => h x y (by simp [he])]

theorem first_same : ∀ (ps : List EPair)
    (_ : ∀ x y, .mk x y ∈ ps → x.SameMeaning (F x) ∧ y.SameMeaning (F y)) (v : Val),
    EPair.YieldsFirst w (ps.map (EPair.visited F)) v ↔ EPair.YieldsFirst w ps v
  | [], _, _ => Iff.rfl
  | .mk x y :: ps, h, v => by
      simp only [List.map_cons, EPair.YieldsFirst, EPair.visited, (h x y (by simp)).1.2.2 w,
        (h x y (by simp)).2.2.2 w, first_same ps fun x y he => h x y (by simp [he])]

theorem noneTrue_same : ∀ (ps : List EPair)
    (_ : ∀ x y, .mk x y ∈ ps → x.SameMeaning (F x) ∧ y.SameMeaning (F y)),
    EPair.NoneTrue w (ps.map (EPair.visited F)) ↔ EPair.NoneTrue w ps
  | [], _ => Iff.rfl
  | .mk x y :: ps, h => by
      simp only [List.map_cons, EPair.NoneTrue, EPair.visited, (h x y (by simp)).1.2.2 w,
        noneTrue_same ps fun x y he => h x y (by simp [he])]

/-- a label of the same meaning stands for the same value -/
theorem label_same {l : Lit} (h : (Expr.lit l).SameMeaning (F (.lit l))) (r : Expr) :
    ∃ l', ECase.visited F (.mk l r) = .mk l' (F r) ∧
      ∀ w : World, Lit.denote w.code l' = Lit.denote w.code l := by
  cases hf : F (.lit l) with
  | lit l' =>
    rw [hf] at h
    refine ⟨l', by simp only [ECase.visited, hf], fun w => Option.ext fun v => ?_⟩
    exact h.2.2 w v
  | _ => exact ⟨l, by simp only [ECase.visited, hf], fun _ => rfl⟩

theorem caseFirst_same : ∀ (cs : List ECase)
    (_ : ∀ l r, .mk l r ∈ cs → (Expr.lit l).SameMeaning (F (.lit l)) ∧ r.SameMeaning (F r)) (x v : Val),
    ECase.YieldsFirst w x (cs.map (ECase.visited F)) v ↔ ECase.YieldsFirst w x cs v
  | [], _, _, _ => Iff.rfl
  | .mk l r :: cs, h, x, v => by
      obtain ⟨l', h1, h2⟩ := label_same (h l r (by simp)).1 r
      simp only [List.map_cons, ECase.YieldsFirst, h1, (h l r (by simp)).2.2.2 w, h2 w, caseFirst_same cs fun x y he => h x y (by simp [he])]

theorem noneEqual_same : ∀ (cs : List ECase)
    (_ : ∀ l r, .mk l r ∈ cs → (Expr.lit l).SameMeaning (F (.lit l)) ∧ r.SameMeaning (F r)) (x : Val),
    ECase.NoneEqual w x (cs.map (ECase.visited F)) ↔ ECase.NoneEqual w x cs
  | [], _, _ => Iff.rfl
  | .mk l r :: cs, h, x => by
      obtain ⟨l', h1, h2⟩ := label_same (h l r (by simp)).1 r
      simp only [List.map_cons, ECase.NoneEqual, h1, h2 w, noneEqual_same cs fun x y he => h x y (by simp [he])]

theorem branchType_same : ∀ (cs : List ECase)
    (_ : ∀ l r, .mk l r ∈ cs → (Expr.lit l).SameMeaning (F (.lit l)) ∧ r.SameMeaning (F r)) (t : Option Ty),
    ECase.branchType (cs.map (ECase.visited F)) t = ECase.branchType cs t
  | [], _, _ => rfl
  | .mk l r :: cs, h, t => by
      simp only [List.map_cons, ECase.branchType, ECase.visited, (h l r (by simp)).2.2.1,
        branchType_same cs fun x y he => h x y (by simp [he])]

theorem getTypes_same : ∀ (es : List Expr) (_ : ∀ e ∈ es, e.SameMeaning (F e)),
    Expr.getTypes (es.map F) = Expr.getTypes es
  | [], _ => rfl
  | e :: es, h => by
      simp only [List.map_cons, Expr.getTypes, (h e (by simp)).2.1,
        getTypes_same es fun e he => h e (by simp [he])]

end

theorem isNil_same {F : Expr → Expr} {e : Expr} (h : e.SameMeaning (F e)) : (F e).isNil = e.isNil := by
  have := h.1
  cases h1 : e.isNil <;> cases h2 : (F e).isNil <;> simp_all

theorem visited_same {F : Expr → Expr} (e : Expr) (h : ∀ c ∈ e.kids, c.SameMeaning (F c)) :
    e.SameMeaning (e.visited F) := by
  cases e <;> simp only [Expr.visited, Expr.kids] at h ⊢ <;> try exact sameMeaning_refl _
  case ifThen ifs els =>
    have hp : ∀ x y, EPair.mk x y ∈ ifs → x.SameMeaning (F x) ∧ y.SameMeaning (F y) := fun x y hm =>
      ⟨h x (List.mem_append_left _ (List.mem_flatMap.2 ⟨_, hm, by simp⟩)),
        h y (List.mem_append_left _ (List.mem_flatMap.2 ⟨_, hm, by simp⟩))⟩
    have he := h els (by simp)
    refine ⟨by simp [Expr.isNil], by simp only [Expr.getType, he.2.1], fun w v => ?_⟩
    simp only [Expr.Yields, first_same ifs hp, noneTrue_same ifs hp, he.2.2 w]
  case cast ty x fail =>
    have he := h x (by simp)
    refine ⟨by simp [Expr.isNil], by simp only [Expr.getType], fun w v => ?_⟩
    simp only [Expr.Yields, he.2.2 w]
  case switch x cs els =>
    have hp : ∀ l r, ECase.mk l r ∈ cs → (Expr.lit l).SameMeaning (F (.lit l)) ∧ r.SameMeaning (F r) :=
      fun l r hm => ⟨h _ (List.mem_append_left _ (List.mem_cons_of_mem _
          (List.mem_flatMap.2 ⟨_, hm, by simp⟩))),
        h _ (List.mem_append_left _ (List.mem_cons_of_mem _ (List.mem_flatMap.2 ⟨_, hm, by simp⟩)))⟩
    have he := h x (by simp)
    have hl := h els (by simp)
    refine ⟨by simp [Expr.isNil], ?_, fun w v => ?_⟩
    · simp only [Expr.getType, branchType_same cs hp, hl.2.1, isNil_same hl]
    · simp only [Expr.Yields, caseFirst_same cs hp, noneEqual_same cs hp, he.2.2 w, hl.2.2 w,
        isNil_same hl]
  case singularOr x os =>
    have he := h x (by simp)
    refine ⟨by simp [Expr.isNil], by simp only [Expr.getType], fun w v => ?_⟩
    simp only [Expr.Yields, he.2.2 w, list_same os fun e hm => h e (by simp [hm])]
  case multiOr es os =>
    refine ⟨by simp [Expr.isNil], by simp only [Expr.getType], fun w v => ?_⟩
    simp only [Expr.Yields, list_same es fun e hm => h e (List.mem_append_left _ hm),
      rows_same os fun rs hr e hm => h e (List.mem_append_right _ (List.mem_flatMap.2 ⟨_, hr, hm⟩))]
  case mapE n v kvs =>
    have hp : ∀ x y, EPair.mk x y ∈ kvs → x.SameMeaning (F x) ∧ y.SameMeaning (F y) := fun x y hm =>
      ⟨h x (List.mem_flatMap.2 ⟨_, hm, by simp⟩), h y (List.mem_flatMap.2 ⟨_, hm, by simp⟩)⟩
    refine ⟨by simp [Expr.isNil], ?_, fun w v => ?_⟩
    · cases kvs with
      | nil => rfl
      | cons p ps =>
        obtain ⟨x, y⟩ := p
        have := hp x y (by simp)
        simp only [List.map_cons, EPair.visited, Expr.getType, this.1.2.1, this.2.2.1]
    · simp only [Expr.Yields, pairs_same kvs hp]
  case structE n v es =>
    refine ⟨by simp [Expr.isNil], by simp only [Expr.getType, getTypes_same es h], fun w v => ?_⟩
    simp only [Expr.Yields, list_same es h]
  case listE n v es =>
    refine ⟨by simp [Expr.isNil], ?_, fun w v => ?_⟩
    · cases es with
      | nil => rfl
      | cons e es => simp only [List.map_cons, Expr.getType, (h e (by simp)).2.1]
    · simp only [Expr.Yields, list_same es h]
  case lambda n v ts x =>
    have he := h x (by simp)
    exact ⟨by simp [Expr.isNil], by simp only [Expr.getType, he.2.1],
      fun w v => by simp only [Expr.Yields]⟩
  case inPredicate es r =>
    refine ⟨by simp [Expr.isNil], by simp only [Expr.getType], fun w v => ?_⟩
    simp only [Expr.Yields, list_same es h]
  case setComparison a b x r =>
    have he := h x (by simp)
    refine ⟨by simp [Expr.isNil], by simp only [Expr.getType], fun w v => ?_⟩
    cases r <;> simp only [Expr.Yields, he.2.2 w]

theorem bottomUp_same {F : Expr → Expr} (hF : ∀ e : Expr, e ≠ .nil → e.SameMeaning (F e)) :
    ∀ (n : Nat) (e : Expr), sizeOf e < n → e.SameMeaning (e.bottomUp F) := by
  intro n
  induction n with
  | zero => intro e h; omega
  | succ n ih =>
    intro e hn
    by_cases he : e = .nil
    · subst he; exact sameMeaning_refl _
    · rw [bottomUp_eq F e he]
      refine sameMeaning_trans (visited_same e fun c hc => ih c ?_) (hF _ (visited_ne_nil _ e he))
      have := kids_smaller e c hc
      omega

end Verif

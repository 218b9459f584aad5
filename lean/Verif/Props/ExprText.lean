import Verif.Lemmas.ExprText
import Verif.Props.ExprProto
/-!
# Properties of the texts of expressions (C139)
-/

namespace Verif

namespace ExprText

variable {g : ExprFmt}

/-- nothing for an absent alternative -/
def orNothing : Expr → Res Bytes → Res Bytes
  | .nil, _ => .ok []
  | _, r => r

theorem ifThen_eq (ifs : List EPair) (els : Expr) : Expr.string g (.ifThen ifs els) =
    EPair.strings g ifs >>= fun ps => orNothing els (Expr.string g els) >>= fun e =>
      .ok (utf8 "<IfThen>(" ++ joinBytes (utf8 ": ") (ps.map fun p => utf8 "(" ++ p.1 ++ utf8 ") ?" ++ p.2)
        ++ utf8 ")<Else>(" ++ e ++ utf8 ")") := by
  cases els with
  | nil => rw [Expr.string]; rfl
  | _ => rw [Expr.string] <;> first | rfl | (intro h; cases h)

theorem switch_eq (m : Expr) (cs : List ECase) (els : Expr) : Expr.string g (.switch m cs els) =
    Expr.string g m >>= fun m => ECase.strings g cs >>= fun cs =>
    orNothing els (Expr.string g els >>= fun e => .ok (utf8 "Else " ++ e)) >>= fun e =>
      .ok (utf8 "CASE " ++ m ++ utf8 ":"
        ++ cs.flatMap (fun c => utf8 "\nWHEN " ++ c.1 ++ utf8 " THEN " ++ c.2 ++ utf8 ";") ++ e) := by
  cases els with
  | nil => rw [Expr.string]; rfl
  | _ =>
    refine (Expr.string.eq_9 g m cs _ ?_).trans rfl
    intro h; cases h

theorem orNothing_eq {c : Expr} {t : Bytes} (ht : Expr.string g c = .ok t) (r : Res Bytes) : orNothing c r = r := by
  cases c with
  | nil => simp [Expr.string] at ht
  | _ => rfl

abbrev All (g : ExprFmt) (e : Expr) : Prop := ∀ x, Expr.Within x e → x.Ready g

theorem all_part {e c : Expr} (h : All g e) (hc : c ∈ e.parts) : All g c := fun x hx => h x (.part c e hc hx)

theorem seg_prints (f : TcFmt) : ∀ s : Seg, s.KeysPrint f →
    (∃ t, s.childString f = .ok t) ∧ (s ≠ .nil → ∃ t, s.string f = .ok t)
  | .nil, _ => by simp [Seg.childString]
  | .mapKey k c, h => by
      obtain ⟨⟨a, ha⟩, h⟩ := h
      obtain ⟨b, hb⟩ := (seg_prints f c h).1
      simp [Seg.childString, Seg.string, ha, hb]
  | .structField i c, h => by
      obtain ⟨b, hb⟩ := (seg_prints f c h).1
      simp [Seg.childString, Seg.string, hb]
  | .listElement i c, h => by
      obtain ⟨b, hb⟩ := (seg_prints f c h).1
      simp [Seg.childString, Seg.string, hb]

theorem ref_prints {root : ERoot} {ref : ERef} {known : Option Ty} (h : (Expr.fieldRef root ref known).Ready g) (r : Bytes) :
    ∃ s, refText g.lit ref known r = .ok s := by
  cases ref with
  | seg s =>
    obtain ⟨t, ht⟩ := (seg_prints g.lit s h.2).2 h.1
    simp [refText, ht]
  | _ => exact h.elim

theorem name_prints {a : FnAttrs} (h : a.declaration ≠ "") : ∃ s, a.nameText g = .ok s := by
  simp [FnAttrs.nameText, h]

mutual
theorem prints : ∀ e : Expr, All g e → ∃ s, Expr.string g e = .ok s
  | .nil, h => (h .nil .refl).elim
  | .lit l, h => by rw [Expr.string]; exact h (.lit l) .refl
  | .fieldRef root ref known, h => by
      obtain ⟨r, hr⟩ := root_prints root (fun x hx => by subst hx; exact all_part h (by simp [Expr.parts]))
      obtain ⟨s, hs⟩ := ref_prints (h _ .refl) r
      exact ⟨s, by rw [Expr.string, hr, Res.ok_bind, hs]⟩
  | .ifThen ifs els, h => by
      obtain ⟨ps, hps⟩ := pairs_print ifs (fun c hc => all_part h (by simp only [Expr.parts, List.mem_append]; exact .inl hc))
      obtain ⟨s, hs⟩ := prints els (all_part h (by simp [Expr.parts]))
      rw [ifThen_eq, orNothing_eq hs, hps, hs]
      exact ⟨_, rfl⟩
  | .cast ty e f, h => by simp [Expr.string]
  | .dynParam ty r, h => by simp [Expr.string]
  | .switch m cs els, h => by
      obtain ⟨a, ha⟩ := prints m (all_part h (by simp [Expr.parts]))
      obtain ⟨ps, hps⟩ := cases_print cs (fun c hc => all_part h (by
        simp only [Expr.parts, List.cons_append, List.mem_cons, List.mem_append]; exact .inr (.inl hc)))
      obtain ⟨s, hs⟩ := prints els (all_part h (by simp [Expr.parts]))
      rw [switch_eq, orNothing_eq hs, ha, hps, hs]
      exact ⟨_, rfl⟩
  | .singularOr v os, h => by
      obtain ⟨a, ha⟩ := prints v (all_part h (by simp [Expr.parts]))
      obtain ⟨b, hb⟩ := list_prints os (fun c hc => all_part h (by simp [Expr.parts, hc]))
      simp [Expr.string, ha, hb]
  | .multiOr vs os, h => by
      obtain ⟨a, ha⟩ := list_prints vs (fun c hc => all_part h (by simp [Expr.parts, hc]))
      obtain ⟨b, hb⟩ := rows_print os (fun c hc => all_part h (by simp only [Expr.parts, List.mem_append]; exact .inr hc))
      simp [Expr.string, ha, hb]
  | .mapE n v kvs, h => by
      obtain ⟨a, ha⟩ := pairs_print kvs (fun c hc => all_part h (by simp only [Expr.parts]; exact hc))
      simp [Expr.string, ha]
  | .structE n v es, h => by
      obtain ⟨a, ha⟩ := list_prints es (fun c hc => all_part h (by simp [Expr.parts, hc]))
      simp [Expr.string, ha]
  | .listE n v es, h => by
      obtain ⟨a, ha⟩ := list_prints es (fun c hc => all_part h (by simp [Expr.parts, hc]))
      simp [Expr.string, ha]
  | .scalar a args, h => by
      have h0 : a.declaration ≠ "" ∧ EArg.nil ∉ args := h _ .refl
      obtain ⟨n, hn⟩ := name_prints (g := g) h0.1
      obtain ⟨b, hb⟩ := args_print args h0.2 (fun c hc => all_part h (by simp only [Expr.parts]; exact hc))
      simp [Expr.string, hn, hb]
  | .window a w args ss ps, h => by
      have h0 : a.declaration ≠ "" ∧ EArg.nil ∉ args ∧ ∀ e, ESort.mk e .nil ∉ ss := h _ .refl
      obtain ⟨n, hn⟩ := name_prints (g := g) h0.1
      obtain ⟨b, hb⟩ := args_print args h0.2.1 (fun c hc => all_part h (by
        simp only [Expr.parts, List.mem_append]; exact .inl (.inl hc)))
      obtain ⟨c, hc⟩ := sorts_print ss h0.2.2
      obtain ⟨d, hd⟩ := list_prints ps (fun c hc => all_part h (by simp [Expr.parts, hc]))
      simp [Expr.string, hn, hb, hc, hd]
  | .lambda n v ps b, h => by
      obtain ⟨a, ha⟩ := prints b (all_part h (by simp [Expr.parts]))
      simp [Expr.string, ha]
  | .scalarSubquery r, h => by simp [Expr.string]
  | .inPredicate ns r, h => by
      obtain ⟨a, ha⟩ := list_prints ns (fun c hc => all_part h (by simp [Expr.parts, hc]))
      simp [Expr.string, ha]
  | .setPredicate op r, h => by simp [Expr.string]
  | .setComparison a b l r, h => by simp [Expr.string]
theorem root_prints : ∀ r : ERoot, (∀ x, r = .expr x → All g x) → ∃ s, ERoot.text g r = .ok s
  | .rootReference, _ => by simp [ERoot.text]
  | .outer n, _ => by simp [ERoot.text]
  | .lambdaParam n, _ => by simp [ERoot.text]
  | .expr e, h => by
      obtain ⟨s, hs⟩ := prints e (h e rfl)
      cases e <;> simp [ERoot.text, hs]
theorem list_prints : ∀ es : List Expr, (∀ c ∈ es, All g c) → ∃ s, Expr.strings g es = .ok s
  | [], _ => by simp [Expr.strings]
  | e :: es, h => by
      obtain ⟨a, ha⟩ := prints e (h e (by simp))
      obtain ⟨b, hb⟩ := list_prints es (fun c hc => h c (by simp [hc]))
      simp [Expr.strings, ha, hb]
theorem pairs_print : ∀ es : List EPair, (∀ c ∈ es.flatMap EPair.exprs, All g c) → ∃ s, EPair.strings g es = .ok s
  | [], _ => by simp [EPair.strings]
  | .mk x y :: es, h => by
      obtain ⟨a, ha⟩ := prints x (h x (by simp [EPair.exprs]))
      obtain ⟨b, hb⟩ := prints y (h y (by simp [EPair.exprs]))
      obtain ⟨c, hc⟩ := pairs_print es (fun c hc => h c (by rw [List.flatMap_cons]; exact List.mem_append_right _ hc))
      simp [EPair.strings, ha, hb, hc]
theorem cases_print : ∀ es : List ECase, (∀ c ∈ es.flatMap ECase.exprs, All g c) → ∃ s, ECase.strings g es = .ok s
  | [], _ => by simp [ECase.strings]
  | .mk l y :: es, h => by
      obtain ⟨a, ha⟩ : ∃ a, l.string g.lit = .ok a := h (.lit l) (by simp [ECase.exprs]) _ .refl
      obtain ⟨b, hb⟩ := prints y (h y (by simp [ECase.exprs]))
      obtain ⟨c, hc⟩ := cases_print es (fun c hc => h c (by rw [List.flatMap_cons]; exact List.mem_append_right _ hc))
      simp [ECase.strings, ha, hb, hc]
theorem rows_print : ∀ es : List ERow, (∀ c ∈ es.flatMap ERow.exprs, All g c) → ∃ s, ERow.strings g es = .ok s
  | [], _ => by simp [ERow.strings]
  | .mk xs :: es, h => by
      obtain ⟨a, ha⟩ := list_prints xs (fun c hc => h c (by
        rw [List.flatMap_cons]; exact List.mem_append_left _ (by simpa [ERow.exprs] using hc)))
      obtain ⟨c, hc⟩ := rows_print es (fun c hc => h c (by rw [List.flatMap_cons]; exact List.mem_append_right _ hc))
      simp [ERow.strings, ha, hc]
theorem args_print : ∀ es : List EArg, EArg.nil ∉ es → (∀ c ∈ es.flatMap EArg.exprs, All g c) →
    ∃ s, EArg.strings g es = .ok s
  | [], _, _ => by simp [EArg.strings]
  | .nil :: es, hn, _ => absurd (by simp) hn
  | .expr e :: es, hn, h => by
      obtain ⟨a, ha⟩ := prints e (h e (by simp [EArg.exprs]))
      obtain ⟨c, hc⟩ := args_print es (fun h => hn (by simp [h]))
        (fun c hc => h c (by rw [List.flatMap_cons]; exact List.mem_append_right _ hc))
      simp [EArg.strings, ha, hc]
  | .type t :: es, hn, h => by
      obtain ⟨c, hc⟩ := args_print es (fun h => hn (by simp [h]))
        (fun c hc => h c (by rw [List.flatMap_cons]; exact List.mem_append_right _ hc))
      simp [EArg.strings, hc]
  | .enum t :: es, hn, h => by
      obtain ⟨c, hc⟩ := args_print es (fun h => hn (by simp [h]))
        (fun c hc => h c (by rw [List.flatMap_cons]; exact List.mem_append_right _ hc))
      simp [EArg.strings, hc]
theorem sorts_print : ∀ es : List ESort, (∀ e, ESort.mk e .nil ∉ es) → ∃ s, ESort.strings g es = .ok s
  | [], _ => by simp [ESort.strings]
  | .mk e k :: es, h => by
      obtain ⟨c, hc⟩ := sorts_print es (fun x hx => h x (by simp [hx]))
      cases k with
      | nil => exact absurd (by simp) (h e)
      | _ => simp [ESort.strings, SortKind.text, hc]
end

/-! ### Containment -/

theorem inl {t a : Bytes} (b : Bytes) (h : t <:+: a) : t <:+: a ++ b := h.trans (List.infix_append' [] a b)
theorem inr {t b : Bytes} (a : Bytes) (h : t <:+: b) : t <:+: a ++ b := h.trans (List.suffix_append a b).isInfix

theorem in_join {t sep : Bytes} : ∀ {l : List Bytes}, (∃ x ∈ l, t <:+: x) → t <:+: joinBytes sep l
  | [], h => by simp at h
  | [a], h => by simpa [joinBytes] using h
  | a :: b :: r, h => by
      obtain ⟨x, hx, h⟩ := h
      rw [joinBytes]
      rcases List.mem_cons.1 hx with rfl | hx
      · exact inl _ (inl _ h)
      · exact inr _ (in_join ⟨x, hx, h⟩)

theorem in_flat {α} {t : Bytes} {f : α → Bytes} : ∀ {l : List α}, (∃ x ∈ l, t <:+: f x) → t <:+: l.flatMap f
  | [], h => by simp at h
  | a :: r, h => by
      obtain ⟨x, hx, h⟩ := h
      rw [List.flatMap_cons]
      rcases List.mem_cons.1 hx with rfl | hx
      · exact inl _ h
      · exact inr _ (in_flat ⟨x, hx, h⟩)

theorem list_in : ∀ {es : List Expr} {ss : List Bytes}, Expr.strings g es = .ok ss → ∀ c ∈ es, ∀ t,
    Expr.string g c = .ok t → ∃ x ∈ ss, t <:+: x
  | [], ss, h, c, hc, t, ht => by simp at hc
  | e :: es, ss, h, c, hc, t, ht => by
      simp only [Expr.strings, Res.bind_eq_ok] at h
      obtain ⟨a, ha, b, hb, h⟩ := h
      cases h
      rcases List.mem_cons.1 hc with rfl | hc
      · rw [ht] at ha; cases ha; exact ⟨t, by simp, List.infix_rfl⟩
      · obtain ⟨x, hx, h⟩ := list_in hb c hc t ht
        exact ⟨x, by simp [hx], h⟩

theorem pairs_in : ∀ {es : List EPair} {ss : List (Bytes × Bytes)}, EPair.strings g es = .ok ss →
    ∀ c ∈ es.flatMap EPair.exprs, ∀ t, Expr.string g c = .ok t → ∃ x ∈ ss, t = x.1 ∨ t = x.2
  | [], ss, h, c, hc, t, ht => by simp at hc
  | .mk x y :: es, ss, h, c, hc, t, ht => by
      simp only [EPair.strings, Res.bind_eq_ok] at h
      obtain ⟨a, ha, a', ha', b, hb, h⟩ := h
      cases h
      simp only [List.flatMap_cons, EPair.exprs, List.cons_append, List.nil_append, List.mem_cons] at hc
      rcases hc with rfl | rfl | hc
      · rw [ht] at ha; cases ha; exact ⟨_, List.mem_cons_self, .inl rfl⟩
      · rw [ht] at ha'; cases ha'; exact ⟨_, List.mem_cons_self, .inr rfl⟩
      · obtain ⟨x, hx, h⟩ := pairs_in hb c hc t ht
        exact ⟨x, by simp [hx], h⟩

theorem cases_in : ∀ {es : List ECase} {ss : List (Bytes × Bytes)}, ECase.strings g es = .ok ss →
    ∀ c ∈ es.flatMap ECase.exprs, ∀ t, Expr.string g c = .ok t → ∃ x ∈ ss, t = x.1 ∨ t = x.2
  | [], ss, h, c, hc, t, ht => by simp at hc
  | .mk x y :: es, ss, h, c, hc, t, ht => by
      simp only [ECase.strings, Res.bind_eq_ok] at h
      obtain ⟨a, ha, a', ha', b, hb, h⟩ := h
      cases h
      simp only [List.flatMap_cons, ECase.exprs, List.cons_append, List.nil_append, List.mem_cons] at hc
      rcases hc with rfl | rfl | hc
      · rw [Expr.string] at ht; rw [ht] at ha; cases ha; exact ⟨_, List.mem_cons_self, .inl rfl⟩
      · rw [ht] at ha'; cases ha'; exact ⟨_, List.mem_cons_self, .inr rfl⟩
      · obtain ⟨x, hx, h⟩ := cases_in hb c hc t ht
        exact ⟨x, by simp [hx], h⟩

theorem rows_in : ∀ {es : List ERow} {ss : List (List Bytes)}, ERow.strings g es = .ok ss →
    ∀ c ∈ es.flatMap ERow.exprs, ∀ t, Expr.string g c = .ok t → ∃ x ∈ ss.map listText, t <:+: x
  | [], ss, h, c, hc, t, ht => by simp at hc
  | .mk xs :: es, ss, h, c, hc, t, ht => by
      simp only [ERow.strings, Res.bind_eq_ok] at h
      obtain ⟨a, ha, b, hb, h⟩ := h
      cases h
      simp only [List.flatMap_cons, ERow.exprs, List.mem_append] at hc
      rcases hc with hc | hc
      · exact ⟨listText a, by simp, by unfold listText; exact inl _ (inr _ (in_join (list_in ha c hc t ht)))⟩
      · obtain ⟨x, hx, h⟩ := rows_in hb c hc t ht
        exact ⟨x, by rw [List.map_cons]; exact List.mem_cons_of_mem _ hx, h⟩

theorem args_in : ∀ {es : List EArg} {ss : List Bytes}, EArg.strings g es = .ok ss →
    ∀ c ∈ es.flatMap EArg.exprs, ∀ t, Expr.string g c = .ok t → ∃ x ∈ ss, t <:+: x
  | [], ss, h, c, hc, t, ht => by simp at hc
  | .nil :: es, ss, h, c, hc, t, ht => by simp [EArg.strings] at h
  | .expr e :: es, ss, h, c, hc, t, ht => by
      simp only [EArg.strings, Res.bind_eq_ok] at h
      obtain ⟨a, ha, b, hb, h⟩ := h
      cases h
      simp only [List.flatMap_cons, EArg.exprs, List.cons_append, List.nil_append, List.mem_cons] at hc
      rcases hc with rfl | hc
      · rw [ht] at ha; cases ha; exact ⟨t, by simp, List.infix_rfl⟩
      · obtain ⟨x, hx, h⟩ := args_in hb c hc t ht
        exact ⟨x, by simp [hx], h⟩
  | .type _ :: es, ss, h, c, hc, t, ht | .enum _ :: es, ss, h, c, hc, t, ht => by
      simp only [EArg.strings, Res.bind_eq_ok] at h
      obtain ⟨b, hb, h⟩ := h
      cases h
      simp only [List.flatMap_cons, EArg.exprs, List.nil_append] at hc
      obtain ⟨x, hx, h⟩ := args_in hb c hc t ht
      exact ⟨x, by simp [hx], h⟩

theorem sorts_in : ∀ {es : List ESort} {ss : List Bytes}, ESort.strings g es = .ok ss →
    ∀ c ∈ es.map ESort.expr, ∀ t, Expr.string g c = .ok t → ∃ x ∈ ss, t <:+: x
  | [], ss, h, c, hc, t, ht => by simp at hc
  | .mk e k :: es, ss, h, c, hc, t, ht => by
      simp only [ESort.strings, Res.bind_eq_ok] at h
      obtain ⟨a, ha, b, hb, h⟩ := h
      cases h
      simp only [List.map_cons, ESort.expr, List.mem_cons] at hc
      rcases hc with rfl | hc
      · refine ⟨_, List.mem_cons_self, inl _ (inl _ (inl _ (inr _ ?_)))⟩
        rw [ht, ExprFmt.shown]
        exact List.infix_rfl
      · obtain ⟨x, hx, h⟩ := sorts_in hb c hc t ht
        exact ⟨x, by simp [hx], h⟩

theorem args_say : ∀ {es : List EArg} {ss : List Bytes}, EArg.strings g es = .ok ss →
    ∀ c ∈ es, ∀ b ∈ c.words, ∃ x ∈ ss, b <:+: x
  | [], ss, h, c, hc, b, hb => by simp at hc
  | .nil :: es, ss, h, c, hc, b, hb => by simp [EArg.strings] at h
  | .expr e :: es, ss, h, c, hc, b, hb => by
      simp only [EArg.strings, Res.bind_eq_ok] at h
      obtain ⟨a, ha, b', hb', h⟩ := h
      cases h
      rcases List.mem_cons.1 hc with rfl | hc
      · simp [EArg.words] at hb
      · obtain ⟨x, hx, h⟩ := args_say hb' c hc b hb
        exact ⟨x, by simp [hx], h⟩
  | .type _ :: es, ss, h, c, hc, b, hb | .enum _ :: es, ss, h, c, hc, b, hb => by
      simp only [EArg.strings, Res.bind_eq_ok] at h
      obtain ⟨b', hb', h⟩ := h
      cases h
      rcases List.mem_cons.1 hc with rfl | hc
      · rw [EArg.words, List.mem_singleton] at hb
        subst hb
        exact ⟨_, List.mem_cons_self, List.infix_rfl⟩
      · obtain ⟨x, hx, h⟩ := args_say hb' c hc b hb
        exact ⟨x, List.mem_cons_of_mem _ hx, h⟩

theorem sorts_say : ∀ {es : List ESort} {ss : List Bytes}, ESort.strings g es = .ok ss →
    ∀ e k, ESort.mk e k ∈ es → ∀ t, SortKind.text g k = .ok t → ∃ x ∈ ss, t <:+: x
  | [], ss, h, e, k, hc, t, ht => by simp at hc
  | .mk e' k' :: es, ss, h, e, k, hc, t, ht => by
      simp only [ESort.strings, Res.bind_eq_ok] at h
      obtain ⟨a, ha, b, hb, h⟩ := h
      cases h
      rcases List.mem_cons.1 hc with hc | hc
      · cases hc
        rw [ht] at ha; cases ha
        exact ⟨_, List.mem_cons_self, inl _ (inr _ List.infix_rfl)⟩
      · obtain ⟨x, hx, h⟩ := sorts_say hb e k hc t ht
        exact ⟨x, List.mem_cons_of_mem _ hx, h⟩

theorem params_say : ∀ (ps : List Ty) (j i : Nat) (t : Ty), ps[i]? = some t →
    (utf8 "$" ++ intText (j + i : Nat) ++ utf8 ": " ++ utf8 t.string) ∈ paramTexts j ps
  | [], j, i, t, h => by simp at h
  | a :: ps, j, 0, t, h => by
      rw [List.getElem?_cons_zero, Option.some.injEq] at h
      subst h
      exact List.mem_cons_self
  | a :: ps, j, i + 1, t, h => by
      rw [List.getElem?_cons_succ] at h
      have := params_say ps (j + 1) i t h
      rw [show j + 1 + i = j + (i + 1) by omega] at this
      exact List.mem_cons_of_mem _ this

theorem nested_says {n : Bool} {v : UInt32} {b : Bytes} (h : b = intText v.toNat ∨ (n = true ∧ b = utf8 "?")) :
    b <:+: nestedEnd n v := by
  unfold nestedEnd
  rcases h with rfl | ⟨rfl, rfl⟩
  · exact inl _ (inr _ List.infix_rfl)
  · rw [if_pos rfl]
    exact inl _ (inl _ (inl _ List.infix_rfl))

theorem bound_words (x : Bound) : x.words = x.text := by cases x <;> rfl

end ExprText

open ExprText

/-! ## C139 -/

/-- **C139.** An expression can be printed if nothing in it lacks what it needs. -/
theorem C139_prints (g : ExprFmt) (e : Expr) (h : ∀ x, Expr.Within x e → x.Ready g) : ∃ s, e.string g = .ok s :=
  prints e h

/-- **C139.** The text of an expression contains the texts of its parts. -/
theorem C139_part (g : ExprFmt) (e c : Expr) (s t : Bytes) (hc : c ∈ e.parts) (he : e.string g = .ok s)
    (ht : c.string g = .ok t) : t <:+: s := by
  cases e with
  | nil | lit | dynParam | scalarSubquery | setPredicate => simp [Expr.parts] at hc
  | fieldRef root ref known =>
    cases root with
    | expr e =>
      simp only [Expr.parts, List.mem_singleton] at hc
      subst hc
      have hr : ERoot.text g (.expr c) = .ok ([91, 114, 111, 111, 116, 58, 40] ++ t ++ [41, 93]) := by
        cases c <;> first | (simp [Expr.string] at ht; done) | simp [ERoot.text, ht]
      rw [Expr.string, hr, Res.ok_bind] at he
      cases ref with
      | seg p =>
        simp only [refText, Res.bind_eq_ok] at he
        obtain ⟨q, _, he⟩ := he
        cases he
        exact inl _ (inl _ (inl _ (inr _ List.infix_rfl)))
      | _ => simp [refText] at he
    | _ => simp [Expr.parts] at hc
  | ifThen ifs els =>
    simp only [ifThen_eq, Res.bind_eq_ok] at he
    obtain ⟨ps, hps, b, hb, he⟩ := he
    cases he
    simp only [Expr.parts, List.mem_append, List.mem_singleton] at hc
    rcases hc with hc | rfl
    · obtain ⟨x, hx, h⟩ := pairs_in hps c hc t ht
      refine inl _ (inl _ (inl _ (inr _ (in_join ⟨_, List.mem_map.2 ⟨x, hx, rfl⟩, ?_⟩))))
      rcases h with rfl | rfl
      · exact inl _ (inl _ (inr _ List.infix_rfl))
      · exact inr _ List.infix_rfl
    · rw [orNothing_eq ht, ht] at hb
      cases hb
      exact inl _ (inr _ List.infix_rfl)
  | cast ty e f =>
    simp only [Expr.parts, List.mem_singleton] at hc
    subst hc
    simp only [Expr.string, ht, ExprFmt.shown, Res.ok.injEq] at he
    subst he
    exact inl _ (inl _ (inl _ (inl _ (inl _ (inr _ List.infix_rfl)))))
  | switch m cs els =>
    simp only [switch_eq, Res.bind_eq_ok] at he
    obtain ⟨a, ha, ps, hps, b, hb, he⟩ := he
    cases he
    simp only [Expr.parts, List.cons_append, List.mem_cons, List.mem_append, List.not_mem_nil, or_false] at hc
    rcases hc with rfl | hc | rfl
    · rw [ht] at ha; cases ha
      exact inl _ (inl _ (inl _ (inr _ List.infix_rfl)))
    · obtain ⟨x, hx, h⟩ := cases_in hps c hc t ht
      refine inl _ (inr _ (in_flat ⟨x, hx, ?_⟩))
      rcases h with rfl | rfl
      · exact inl _ (inl _ (inl _ (inr _ List.infix_rfl)))
      · exact inl _ (inr _ List.infix_rfl)
    · rw [orNothing_eq ht, ht, Res.ok_bind] at hb
      cases hb
      exact inr _ (inr _ List.infix_rfl)
  | singularOr v os =>
    simp only [Expr.string, Res.bind_eq_ok] at he
    obtain ⟨a, ha, ps, hps, he⟩ := he
    cases he
    rcases List.mem_cons.1 hc with rfl | hc
    · rw [ht] at ha; cases ha
      exact inl _ (inl _ (inl _ List.infix_rfl))
    · exact inl _ (inr _ (in_join (list_in hps c hc t ht)))
  | multiOr vs os =>
    simp only [Expr.string, Res.bind_eq_ok] at he
    obtain ⟨a, ha, ps, hps, he⟩ := he
    cases he
    rcases List.mem_append.1 hc with hc | hc
    · exact inl _ (inl _ (inl _ (inl _ (inr _ (in_join (list_in ha c hc t ht))))))
    · exact inl _ (inr _ (in_join (rows_in hps c hc t ht)))
  | mapE n v kvs =>
    simp only [Expr.string, Res.bind_eq_ok] at he
    obtain ⟨ps, hps, he⟩ := he
    cases he
    obtain ⟨x, hx, h⟩ := pairs_in hps c hc t ht
    refine inl _ (inl _ (inr _ (in_join ⟨_, List.mem_map.2 ⟨x, hx, rfl⟩, ?_⟩)))
    rcases h with rfl | rfl
    · exact inl _ (inl _ List.infix_rfl)
    · exact inr _ List.infix_rfl
  | structE n v es =>
    simp only [Expr.string, Res.bind_eq_ok] at he
    obtain ⟨ps, hps, he⟩ := he
    cases he
    exact inl _ (inl _ (inr _ (in_join (list_in hps c hc t ht))))
  | listE n v es =>
    simp only [Expr.string, Res.bind_eq_ok] at he
    obtain ⟨ps, hps, he⟩ := he
    cases he
    exact inl _ (inl _ (inr _ (in_join (list_in hps c hc t ht))))
  | scalar a args =>
    simp only [Expr.string, Res.bind_eq_ok] at he
    obtain ⟨n, hn, ps, hps, he⟩ := he
    cases he
    exact inl _ (inl _ (inl _ (inr _ (in_join (args_in hps c hc t ht)))))
  | window a w args ss parts =>
    simp only [Expr.string, Res.bind_eq_ok] at he
    obtain ⟨n, hn, as, has, bs, hbs, ds, hds, he⟩ := he
    cases he
    iterate 6 apply inl
    simp only [Expr.parts, List.mem_append] at hc
    rcases hc with (hc | hc) | hc
    · exact inl _ (inl _ (inl _ (inl _ (inr _ (in_join (args_in has c hc t ht))))))
    · have h := sorts_in hbs c hc t ht
      refine inl _ (inl _ (inl _ (inr _ ?_)))
      rw [sortsText, if_neg (by rintro rfl; simp at h)]
      exact inl _ (inr _ (in_join h))
    · have h := list_in hds c hc t ht
      refine inl _ (inr _ ?_)
      rw [partitionsText, if_neg (by rintro rfl; simp at h)]
      exact inl _ (inr _ (in_join h))
  | lambda n v ps b =>
    simp only [Expr.string, Res.bind_eq_ok] at he
    obtain ⟨a, ha, he⟩ := he
    cases he
    simp only [Expr.parts, List.mem_singleton] at hc
    subst hc
    rw [ht] at ha; cases ha
    exact inr _ List.infix_rfl
  | inPredicate ns r =>
    simp only [Expr.string, Res.bind_eq_ok] at he
    obtain ⟨ps, hps, he⟩ := he
    cases he
    have h := list_in hps c hc t ht
    refine inl _ (inl _ (inl _ ?_))
    unfold needlesText
    split
    · simpa using h
    · exact inl _ (inr _ (in_join h))
  | setComparison a b l r =>
    simp only [Expr.parts, List.mem_singleton] at hc
    subst hc
    simp only [Expr.string, ht, ExprFmt.shown, Res.ok.injEq] at he
    subst he
    iterate 7 apply inl
    exact List.infix_rfl

/-- **C139.** ... and everything the expression says itself. -/
theorem C139_says (g : ExprFmt) (e : Expr) (s b : Bytes) (he : e.string g = .ok s) (h : e.Says g b) : b <:+: s := by
  cases e with
  | nil | lit | fieldRef | ifThen | switch | singularOr | multiOr => exact h.elim
  | cast ty i f =>
    rw [Expr.string] at he; cases he
    rcases h with rfl | rfl
    · exact inl _ (inl _ (inl _ (inr _ List.infix_rfl)))
    · exact inl _ (inr _ List.infix_rfl)
  | dynParam ty r =>
    rw [Expr.string] at he; cases he
    rcases h with rfl | rfl
    · exact inl _ (inl _ (inr _ List.infix_rfl))
    · exact inr _ List.infix_rfl
  | scalar a args =>
    simp only [Expr.string, Res.bind_eq_ok] at he
    obtain ⟨n, hn, ps, hps, he⟩ := he
    cases he
    rcases h with rfl | rfl | ⟨x, hx, hb⟩ | ⟨o, ho, h⟩
    · unfold FnAttrs.nameText at hn
      split at hn
      · cases hn
      · cases hn
        iterate 5 apply inl
        exact List.infix_rfl
    · exact inr _ List.infix_rfl
    · exact inl _ (inl _ (inl _ (inr _ (in_join (args_say hps x hx b hb)))))
    · refine inl _ (inl _ (inr _ ?_))
      unfold scalarOptionsText
      rw [if_neg (by intro h; rw [h] at ho; cases ho)]
      refine inl _ (inr _ (in_join ⟨_, List.mem_map.2 ⟨o, ho, rfl⟩, ?_⟩))
      rcases h with rfl | ⟨p, hp, rfl⟩
      · exact inl _ (inl _ (inl _ List.infix_rfl))
      · exact inl _ (inr _ (in_join ⟨_, List.mem_map.2 ⟨p, hp, rfl⟩, List.infix_rfl⟩))
  | window a w args ss parts =>
    simp only [Expr.string, Res.bind_eq_ok] at he
    obtain ⟨n, hn, as, has, bs, hbs, ds, hds, he⟩ := he
    cases he
    rcases h with rfl | rfl | ⟨x, hx, hb⟩ | ⟨o, ho, h⟩ | ⟨e, d, hs, rfl⟩ | ⟨e, r, hs, rfl⟩ | ⟨x, hx, rfl⟩ | rfl | rfl
    · unfold FnAttrs.nameText at hn
      split at hn
      · cases hn
      · cases hn
        iterate 12 apply inl
        exact List.infix_rfl
    · exact inr _ List.infix_rfl
    · iterate 10 apply inl
      exact inr _ (in_join (args_say has x hx b hb))
    · iterate 8 apply inl
      refine inr _ ?_
      unfold windowOptionsText
      rw [if_neg (by intro h; rw [h] at ho; cases ho)]
      refine inl _ (inr _ (in_join ⟨_, List.mem_map.2 ⟨o, ho, rfl⟩, ?_⟩))
      rcases h with rfl | rfl
      · exact inl _ (inl _ List.infix_rfl)
      · exact inr _ List.infix_rfl
    · have h := sorts_say hbs e _ hs _ rfl
      iterate 9 apply inl
      refine inr _ ?_
      rw [sortsText, if_neg (by rintro rfl; simp at h)]
      exact inl _ (inr _ (in_join h))
    · have h := sorts_say hbs e _ hs _ rfl
      iterate 9 apply inl
      refine inr _ ?_
      rw [sortsText, if_neg (by rintro rfl; simp at h)]
      obtain ⟨y, hy, h⟩ := h
      exact inl _ (inr _ (in_join ⟨y, hy, (inr _ List.infix_rfl).trans h⟩))
    · iterate 6 apply inl
      refine inr _ ?_
      rw [bound_words]
      rcases hx with hx | hx
      · rw [hx]
        cases w.upper with
        | none => exact inl _ (inr _ List.infix_rfl)
        | some u => exact inl _ (inl _ (inl _ (inr _ List.infix_rfl)))
      · rw [hx]
        cases w.lower with
        | none => exact inl _ (inr _ List.infix_rfl)
        | some u => exact inl _ (inr _ List.infix_rfl)
    · iterate 4 apply inl
      exact inr _ List.infix_rfl
    · exact inl _ (inl _ (inr _ List.infix_rfl))
  | lambda n v ps body =>
    simp only [Expr.string, Res.bind_eq_ok] at he
    obtain ⟨a, ha, he⟩ := he
    cases he
    obtain ⟨i, t, hi, rfl⟩ := h
    have := params_say ps 0 i t hi
    rw [Nat.zero_add] at this
    exact inl _ (inl _ (inr _ (in_join ⟨_, this, List.infix_rfl⟩)))
  | mapE n v kvs =>
    simp only [Expr.string, Res.bind_eq_ok] at he
    obtain ⟨ps, hps, he⟩ := he
    cases he
    exact inr _ (nested_says h)
  | structE n v kvs =>
    simp only [Expr.string, Res.bind_eq_ok] at he
    obtain ⟨ps, hps, he⟩ := he
    cases he
    exact inr _ (nested_says h)
  | listE n v kvs =>
    simp only [Expr.string, Res.bind_eq_ok] at he
    obtain ⟨ps, hps, he⟩ := he
    cases he
    exact inr _ (nested_says h)
  | scalarSubquery r =>
    rw [Expr.string] at he; cases he
    obtain rfl := h
    exact inl _ (inr _ List.infix_rfl)
  | inPredicate ns r =>
    simp only [Expr.string, Res.bind_eq_ok] at he
    obtain ⟨ps, hps, he⟩ := he
    cases he
    obtain rfl := h
    exact inl _ (inr _ List.infix_rfl)
  | setPredicate op r =>
    rw [Expr.string] at he; cases he
    rcases h with rfl | ⟨rfl, rfl⟩ | ⟨rfl, rfl⟩
    · exact inl _ (inr _ List.infix_rfl)
    · exact inl _ (inl _ (inl _ List.infix_rfl))
    · exact inl _ (inl _ (inl _ List.infix_rfl))
  | setComparison red cmp l r =>
    rw [Expr.string] at he; cases he
    have hc : ∀ {x y z c w : Bytes}, y ++ c ++ z <:+: x ++ y ++ c ++ z ++ w := by
      intro x y z c w
      exact ⟨x, w, by simp only [List.append_assoc]⟩
    rcases h with rfl | ⟨rfl, rfl⟩ | ⟨rfl, rfl⟩ | h
    · exact inl _ (inr _ List.infix_rfl)
    · exact inl _ (inl _ (inl _ (inr _ List.infix_rfl)))
    · exact inl _ (inl _ (inl _ (inr _ List.infix_rfl)))
    · iterate 3 apply inl
      have : b = utf8 " " ++ comparisonText cmp ++ utf8 " " := by
        rcases h with ⟨rfl, rfl⟩ | ⟨rfl, rfl⟩ | ⟨rfl, rfl⟩ | ⟨rfl, rfl⟩ | ⟨rfl, rfl⟩ | ⟨rfl, rfl⟩ <;> decide +kernel
      rw [this]
      exact hc

/-- **C139.** ... and of everything in it, at any depth, if nothing lacks what it needs. -/
theorem C139_contains (g : ExprFmt) (e x : Expr) (h : ∀ y, Expr.Within y e → y.Ready g) (hx : Expr.Within x e) :
    ∃ s t, e.string g = .ok s ∧ x.string g = .ok t ∧ t <:+: s := by
  induction hx with
  | refl =>
    obtain ⟨s, hs⟩ := C139_prints g x h
    exact ⟨s, s, hs, hs, List.infix_rfl⟩
  | part c e hc hx ih =>
    obtain ⟨s, t, h1, h2, h3⟩ := ih (all_part h hc)
    obtain ⟨u, hu⟩ := C139_prints g e h
    exact ⟨u, t, hu, h2, h3.trans (C139_part g e c u s hc hu h1)⟩

/-- **C139 (partial).** What `ExprFromProto` returned can be printed, if no literal in the message is unreadable, no
reference lacks a path and there are no decimals of fewer than 16 bytes. Missing: those (`C139_negation`,
`C139_negation_decimal`, `C139_negation_nil`). -/
theorem C139_read_partial (g : ExprFmt) (reg : Reg) (base : Option (List Ty)) (m : ExprMsg) (e : Expr) (hr : reg.Named)
    (hl : ∀ l ∈ m.literals, ¬ l.Unreadable) (h : Expr.fromProto reg base m = .ok e)
    (hu : ∀ x, Expr.Within x e → ¬ x.Unprintable) : ∃ s, e.string g = .ok s := by
  refine C139_prints g e fun x hx => ?_
  have hw := C73_no_nil_partial reg base m e hl h x hx
  have ho := read_origin g reg hr base m e h x hx
  have hu := hu x hx
  cases x with
  | nil => exact absurd rfl hw.1
  | lit l =>
    rcases ho with rfl | ho | ho
    · exact absurd rfl hw.2.1
    · exact absurd ho hu
    · exact ho
  | fieldRef root ref known =>
    cases ref with
    | seg s =>
      refine ⟨ho.1, ?_⟩
      have hk : ∀ k ∈ s.keyList, ∃ t, k.string g.lit = .ok t := by
        intro k hk
        rcases ho.2 k hk with h | h | h
        · exact absurd ⟨k, hk, .inl h⟩ hu
        · exact absurd ⟨k, hk, .inr h⟩ hu
        · exact h
      clear ho hu hw hx
      induction s with
      | nil => trivial
      | mapKey k c ih => exact ⟨hk k (by simp [Seg.keyList]), ih (fun q hq => hk q (by simp [Seg.keyList, hq]))⟩
      | structField i c ih => exact ih hk
      | listElement i c ih => exact ih hk
    | _ => exact absurd trivial hu
  | scalar a args => exact ⟨ho, hw.2.2⟩
  | window a w args ss ps => exact ⟨ho.1, hw.2.2, ho.2⟩
  | _ => trivial

/-- C139 for everything that is read. -/
def C139_statement : Prop := ∀ (g : ExprFmt) (reg : Reg) (base : Option (List Ty)) (m : ExprMsg) (e : Expr),
  reg.Named → Expr.fromProto reg base m = .ok e → ∃ s, e.string g = .ok s

/-- **C139, negation.** A reference by a mask, which is read without an error, panics when it is printed, and with it a
list that contains it; a cast of it is printed, with a note in the place of the reference. -/
theorem C139_negation (g : ExprFmt) (reg : Reg) (base : Option (List Ty)) (k : Nat) (hr : reg.Named) :
    (∃ e, Expr.fromProto reg base (.listE false 0 [.selection .rootReference (.masked k)]) = .ok e ∧
      e.string g = .panic) ∧
    (∃ e i, Expr.fromProto reg base (.cast (some (.prim .string 1 0)) (.selection .rootReference (.masked k)) 0) = .ok e ∧
      i ∈ e.parts ∧ i.string g = .panic ∧ ∃ s, e.string g = .ok s ∧ g.caught i <:+: s) ∧ ¬ C139_statement := by
  have h1 : Expr.fromProto reg base (.listE false 0 [.selection .rootReference (.masked k)]) =
      .ok (.listE false 0 [.fieldRef .rootReference (.mask (reg.maskFrom k)) none]) := by
    simp [Expr.fromProto, Expr.fromProtoList, ERoot.fromProto, refFromProto]
  have h2 : Expr.string g (.listE false 0 [.fieldRef .rootReference (.mask (reg.maskFrom k)) none]) = .panic := by
    simp [Expr.string, Expr.strings, ERoot.text, refText]
  refine ⟨⟨_, h1, h2⟩, ⟨.cast (.prim .string 1 0) (.fieldRef .rootReference (.mask (reg.maskFrom k)) none) 0, _,
    by simp [Expr.fromProto, ERoot.fromProto, refFromProto, typeFromProto, primFromProto], List.mem_cons_self,
    by simp [Expr.string, ERoot.text, refText], _, by rw [Expr.string], ?_⟩, ?_⟩
  · rw [show Expr.string g (.fieldRef .rootReference (.mask (reg.maskFrom k)) none) = .panic by
      simp [Expr.string, ERoot.text, refText], ExprFmt.shown]
    · exact inl _ (inl _ (inl _ (inl _ (inl _ (inr _ List.infix_rfl)))))
    · simp
  · intro hs
    obtain ⟨s, hs⟩ := hs g reg base _ _ hr h1
    rw [h2] at hs
    cases hs

/-- **C139, negation: short decimals.** So does a decimal of fewer than 16 bytes. -/
theorem C139_negation_decimal (g : ExprFmt) (reg : Reg) (base : Option (List Ty)) (n : Bool) (v : UInt32) (b : Bytes)
    (p s : Int32) (hb : b.length < 16) :
    ∃ e, Expr.fromProto reg base (.lit (.mk n v (.decimal b p s))) = .ok e ∧ e.string g = .panic :=
  ⟨.lit (.proto (.bytes b) (.decimal (getNullability n) v s p)),
    by simp [Expr.fromProto, literalFromProto, literalKindFromProto, Expr.ofLit],
    by simp [Expr.string, Lit.string, Lit.getType, Lit.valueString, ProtoVal.valueString, hb]⟩

/-- **C139, negation: literals that are read as nil.** So does a conditional on a timestamp before 1970. -/
theorem C139_negation_nil (g : ExprFmt) (reg : Reg) (base : Option (List Ty)) (p : Int32) (v : Int64) (hv : v < 0)
    (m : ExprMsg) (x : Expr) (h : Expr.fromProto reg base m = .ok x) :
    ∃ e, Expr.fromProto reg base (.ifThen [.mk (.lit (.mk false 0 (.precisionTimestamp p v))) m] m) = .ok e ∧
      e.string g = .panic := by
  have h1 := (C73_negation reg base false 0 p v hv 0).1
  refine ⟨.ifThen [.mk .nil x] x, ?_, by rw [ifThen_eq, EPair.strings, Expr.string]; rfl⟩
  rw [Expr.fromProto, EPair.fromProtoList]
  rw [h1, h]
  simp [EPair.fromProtoList]

/-- The text of a field reference is the one of C138, with these texts for the expressions that references start at. -/
theorem C139_reference (g : ExprFmt) (root : ERoot) (ref : ERef) (known : Option Ty) :
    Expr.string g (.fieldRef root ref known) = fieldRefString g.lit (Expr.string g) root ref known := by
  have hr : ERoot.text g root = root.string (Expr.string g) := by
    cases root with
    | expr e => cases e <;> rfl
    | _ => rfl
  rw [Expr.string, hr]
  cases ref <;> rfl

/-! ### Examples -/

/-- a comparison in a conditional, sorted by a field of a struct -/
def exText : Expr :=
  .ifThen [.mk (.scalar ⟨1, "gt:any_any", [], .prim .boolean 2 0⟩ [.expr (.lit exLit7), .enum "X"])
    (.cast (.prim .string 2 0) (.fieldRef .rootReference (.seg (.structField 3 .nil)) none) 1)] (.lit exLit7)

theorem exText_ready (g : ExprFmt) : ∀ x, Expr.Within x exText → x.Ready g := by
  intro x hx
  have hlit : ∀ x, Expr.Within x (.lit exLit7) → x.Ready g := by
    intro x hx
    cases hx with
    | refl => exact ⟨_, by simp [exLit7, Lit.string, Lit.getType, Lit.valueString]; rfl⟩
    | part c e hc hx => simp [Expr.parts] at hc
  cases hx with
  | refl => trivial
  | part c e hc hx =>
    simp only [exText, Expr.parts, List.flatMap_cons, List.flatMap_nil, EPair.exprs, List.append_nil, List.cons_append,
      List.nil_append, List.mem_cons, List.not_mem_nil, or_false] at hc
    rcases hc with rfl | rfl | rfl
    · cases hx with
      | refl => exact ⟨by decide, by simp⟩
      | part c e hc hx =>
        simp [Expr.parts, EArg.exprs] at hc
        subst hc
        exact hlit x hx
    · cases hx with
      | refl => trivial
      | part c e hc hx =>
        simp [Expr.parts] at hc
        subst hc
        cases hx with
        | refl => exact ⟨by simp, trivial⟩
        | part c e hc hx => simp [Expr.parts] at hc
    · exact hlit x hx

-- `C139_prints`, `C139_contains`: it is printed, and its text shows the field that is cast
example (g : ExprFmt) : ∃ s, exText.string g = .ok s := C139_prints g exText (exText_ready g)
example (g : ExprFmt) : ∃ s, exText.string g = .ok s ∧ [46, 102, 105, 101, 108, 100, 40, 51, 41] <:+: s := by
  obtain ⟨s, t, h1, h2, h3⟩ := C139_contains g exText (.fieldRef .rootReference (.seg (.structField 3 .nil)) none)
    (exText_ready g) (.part _ _ (by simp [exText, Expr.parts, EPair.exprs]; exact .inr (.inl rfl))
      (.part _ _ (by simp [Expr.parts]) .refl))
  rw [C139_reference] at h2
  have h4 : t = [46, 102, 105, 101, 108, 100, 40, 51, 41] := by
    cases h2
    decide +kernel
  exact ⟨s, h1, h4 ▸ h3⟩

-- `C139_says`: a window that ends at the row before
example (g : ExprFmt) (s : Bytes) (h : Expr.string g (.window ⟨2, "rank:any", [], .prim .i64 2 0⟩
    ⟨3, 1, 0, none, some (.preceding 1)⟩ [] [] []) = .ok s) : utf8 "1 PRECEDING" <:+: s :=
  C139_says g _ s _ h (.inr (.inr (.inr (.inr (.inr (.inr (.inl
    ⟨.preceding 1, .inr rfl, by decide +kernel⟩)))))))

-- a registry with named declarations
example : Reg.Named { exReg with custom := fun _ => .ok (3, "mystery:i32") } := by
  refine ⟨fun r n h => ?_, fun r n h => ?_, fun id r n h => ?_⟩ <;> simp [exReg] at h
  · rw [← h.2]; decide
  · rw [← h.2]; decide
  · rw [← h.2]; decide

-- `C139_read_partial`: a list of a number and a field
example (g : ExprFmt) (reg : Reg) (hr : reg.Named) (e : Expr)
    (he : e = .listE false 0 [.lit exLit7, .fieldRef .rootReference (.seg (.structField 3 .nil)) none]) :
    ∃ s, e.string g = .ok s := by
  refine C139_read_partial g reg none
    (.listE false 0 [.lit (.mk false 0 (.i32 7)), .selection .rootReference (.direct (.structField 3 .nil))]) e hr
    (by simp [ExprMsg.literals, ExprMsg.literalsL, PLit.Unreadable, RootMsg.literals]) (by subst he; rfl) ?_
  intro x hx
  subst he
  cases hx with
  | refl => exact id
  | part c e hc hx =>
    simp only [Expr.parts, List.mem_cons, List.not_mem_nil, or_false] at hc
    rcases hc with rfl | rfl <;> cases hx with
    | refl => simp [Expr.Unprintable, Lit.ShortDecimal, exLit7, Seg.keyList]
    | part c e hc hx => simp [Expr.parts] at hc

-- `C139_negation_decimal`: a decimal of one byte
example (g : ExprFmt) (reg : Reg) :
    ∃ e, Expr.fromProto reg none (.lit (.mk false 0 (.decimal [5] 1 0))) = .ok e ∧ e.string g = .panic :=
  C139_negation_decimal g reg none false 0 [5] 1 0 (by simp)

end Verif

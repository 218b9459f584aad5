import Verif.Spec.Expr
import Verif.Lemmas.Types
import Mathlib.Tactic.Tauto
/-! # Lemmas about expression equality -/

namespace Verif

theorem Decides.len {x : Res Bool} {P : Prop} {n m : Nat} (hn : P → n = m)
    (h : n = m → Decides x P) : Decides (if n ≠ m then .ok false else x) P := by
  by_cases e : n = m
  · simpa [e] using h e
  · simpa [e] using (Decides.of_false (x := .ok false) rfl (fun p => e (hn p)))

theorem Decides.guard {x : Res Bool} {P Q : Prop} [Decidable Q] (hx : Decides x P) :
    Decides (if Q then x else .ok false) (Q ∧ P) := by
  by_cases e : Q
  · simpa [e] using hx
  · simpa [e] using (Decides.of_false (x := .ok false) (P := False) rfl id)

theorem Decides.guardNot {x : Res Bool} {P Q : Prop} [Decidable Q] (hx : Decides x P) :
    Decides (if Q then .ok false else x) (¬ Q ∧ P) := by
  by_cases e : Q
  · simpa [e] using (Decides.of_false (x := .ok false) (P := False) rfl id)
  · simpa [e] using hx

theorem Decides.dec {P : Prop} [Decidable P] : Decides (.ok (decide P)) P := ⟨_, rfl, by simp⟩

theorem Decides.yes {P : Prop} (h : P) : Decides (.ok true) P := ⟨true, rfl, by simp [h]⟩

theorem Decides.beq {a b : Nat} : Decides (.ok (a == b)) (a = b) := ⟨_, rfl, by simp⟩

theorem goEq_iff (a b : PVal) (ha : a.Comparable) (hb : b.Comparable) :
    a.goEq b = true ↔ a.canon = b.canon := by
  cases a <;> cases b <;> simp [PVal.goEq, PVal.canon, PVal.Comparable] at *
  · next x y =>
    have h0 : zero32 0 = true := by decide
    by_cases hx : zero32 x = true <;> by_cases hy : zero32 y = true <;> simp [hx, hy, ha, hb]
    all_goals (constructor <;> rintro rfl <;> simp_all)
  · next x y =>
    have h0 : zero64 0 = true := by decide
    by_cases hx : zero64 x = true <;> by_cases hy : zero64 y = true <;> simp [hx, hy, ha, hb]
    all_goals (constructor <;> rintro rfl <;> simp_all)

theorem lcanonList_length : ∀ ls : List Lit, (Lit.canonList ls).length = ls.length
  | [] => rfl
  | _ :: ls => by simp [Lit.canonList, lcanonList_length ls]
theorem kcanonList_length : ∀ ls : List KeyValue, (KeyValue.canonList ls).length = ls.length
  | [] => rfl
  | .mk _ _ :: ls => by simp [KeyValue.canonList, kcanonList_length ls]
theorem ecanonList_length : ∀ ls : List Expr, (Expr.canonList ls).length = ls.length
  | [] => rfl
  | _ :: ls => by simp [Expr.canonList, ecanonList_length ls]
theorem pcanonList_length : ∀ ls : List EPair, (EPair.canonList ls).length = ls.length
  | [] => rfl
  | .mk _ _ :: ls => by simp [EPair.canonList, pcanonList_length ls]
theorem ccanonList_length : ∀ ls : List ECase, (ECase.canonList ls).length = ls.length
  | [] => rfl
  | .mk _ _ :: ls => by simp [ECase.canonList, ccanonList_length ls]
theorem rcanonList_length : ∀ ls : List ERow, (ERow.canonList ls).length = ls.length
  | [] => rfl
  | .mk _ :: ls => by simp [ERow.canonList, rcanonList_length ls]
theorem acanonList_length : ∀ ls : List EArg, (EArg.canonList ls).length = ls.length
  | [] => rfl
  | _ :: ls => by simp [EArg.canonList, acanonList_length ls]
theorem scanonList_length : ∀ ls : List ESort, (ESort.canonList ls).length = ls.length
  | [] => rfl
  | .mk _ _ :: ls => by simp [ESort.canonList, scanonList_length ls]

theorem len_of_lcanon {a b : List Lit} (h : Lit.canonList a = Lit.canonList b) :
    a.length = b.length := by rw [← lcanonList_length a, h, lcanonList_length]
theorem len_of_kcanon {a b : List KeyValue} (h : KeyValue.canonList a = KeyValue.canonList b) :
    a.length = b.length := by rw [← kcanonList_length a, h, kcanonList_length]
theorem len_of_ecanon {a b : List Expr} (h : Expr.canonList a = Expr.canonList b) :
    a.length = b.length := by rw [← ecanonList_length a, h, ecanonList_length]
theorem len_of_pcanon {a b : List EPair} (h : EPair.canonList a = EPair.canonList b) :
    a.length = b.length := by rw [← pcanonList_length a, h, pcanonList_length]
theorem len_of_ccanon {a b : List ECase} (h : ECase.canonList a = ECase.canonList b) :
    a.length = b.length := by rw [← ccanonList_length a, h, ccanonList_length]
theorem len_of_rcanon {a b : List ERow} (h : ERow.canonList a = ERow.canonList b) :
    a.length = b.length := by rw [← rcanonList_length a, h, rcanonList_length]
theorem len_of_acanon {a b : List EArg} (h : EArg.canonList a = EArg.canonList b) :
    a.length = b.length := by rw [← acanonList_length a, h, acanonList_length]
theorem len_of_scanon {a b : List ESort} (h : ESort.canonList a = ESort.canonList b) :
    a.length = b.length := by rw [← scanonList_length a, h, scanonList_length]

mutual
theorem lit_equals_spec : ∀ (a b : Lit), a.Regular → b.Regular →
    Decides (a.equals b) (a.canon = b.canon)
  | .nil, _, h, _ => by simp [Lit.Regular] at h
  | .null t, b, h, hb => by
    cases b <;> try (refine .of_false ?_ ?_ <;> simp [Lit.equals, Lit.canon] <;> done)
    next t' =>
      simp only [Lit.equals, Lit.canon, Lit.Regular] at *
      exact (equals_spec t' t hb).congr (by simp [eq_comm])
  | .prim v t, b, h, hb => by
    cases b <;> try (refine .of_false ?_ ?_ <;> simp [Lit.equals, Lit.canon] <;> done)
    next v' t' =>
      simp only [Lit.equals, Lit.canon, Lit.Regular] at *
      exact ((equals_spec t t' h.2).and ⟨_, rfl, goEq_iff v v' h.1 hb.1⟩).congr
        (by simp [and_comm])
  | .bytes k x t, b, h, hb => by
    cases b <;> try (refine .of_false ?_ ?_ <;> simp [Lit.equals, Lit.canon] <;> done)
    next k' x' t' =>
      simp only [Lit.equals, Lit.canon, Lit.Regular] at *
      exact (Decides.guardNot ((equals_spec t t' h).and .dec)).congr
        (by simp; tauto)
  | .struct vs t, b, h, hb => by
    cases b <;> try (refine .of_false ?_ ?_ <;> simp [Lit.equals, Lit.canon] <;> done)
    next vs' t' =>
      simp only [Lit.equals, Lit.canon, Lit.Regular] at *
      exact ((equals_spec t t' h.2).and (.len len_of_lcanon
        (fun e => lit_loop_spec vs vs' e h.1 hb.1))).congr (by simp [and_comm])
  | .list vs t, b, h, hb => by
    cases b <;> try (refine .of_false ?_ ?_ <;> simp [Lit.equals, Lit.canon] <;> done)
    next vs' t' =>
      simp only [Lit.equals, Lit.canon, Lit.Regular] at *
      exact ((equals_spec t t' h.2).and (.len len_of_lcanon
        (fun e => lit_loop_spec vs vs' e h.1 hb.1))).congr (by simp [and_comm])
  | .map kvs t, b, h, hb => by
    cases b <;> try (refine .of_false ?_ ?_ <;> simp [Lit.equals, Lit.canon] <;> done)
    next kvs' t' =>
      simp only [Lit.equals, Lit.canon, Lit.Regular] at *
      exact ((equals_spec t t' h.2).and (.len len_of_kcanon
        (fun e => kv_loop_spec kvs kvs' e h.1 hb.1))).congr (by simp [and_comm])
  | .proto v t, b, h, hb => by
    cases b <;> try (refine .of_false ?_ ?_ <;> simp [Lit.equals, Lit.canon] <;> done)
    next v' t' =>
      simp only [Lit.equals, Lit.canon, Lit.Regular, ProtoVal.deepEq] at *
      exact ((equals_spec t t' h.2).and (Q := v = v') ⟨_, rfl, by simp⟩).congr (by simp [and_comm])
  | .intervalYearToMonth .., b, h, hb => by
    cases b <;> try (refine .of_false ?_ ?_ <;> simp [Lit.equals, Lit.canon] <;> done)
    simp only [Lit.equals, Lit.canon]
    exact Decides.dec.congr (by simp)
  | .intervalCompound .., b, h, hb => by
    cases b <;> try (refine .of_false ?_ ?_ <;> simp [Lit.equals, Lit.canon] <;> done)
    simp only [Lit.equals, Lit.canon]
    exact Decides.dec.congr (by simp)
theorem lit_loop_spec : ∀ (a b : List Lit), a.length = b.length → Lit.RegularList a →
    Lit.RegularList b → Decides (Lit.equalsLoop a b) (Lit.canonList a = Lit.canonList b)
  | [], [], _, _, _ => ⟨true, by simp [Lit.equalsLoop], by simp⟩
  | [], _ :: _, h, _, _ => by simp at h
  | _ :: _, [], h, _, _ => by simp at h
  | l :: ls, r :: rs, h, ha, hb => by
    simp only [Lit.equalsLoop, Lit.canonList, Lit.RegularList] at *
    exact ((lit_equals_spec l r ha.1 hb.1).and
      (lit_loop_spec ls rs (by simpa using h) ha.2 hb.2)).congr (by simp)
theorem kv_loop_spec : ∀ (a b : List KeyValue), a.length = b.length → KeyValue.RegularList a →
    KeyValue.RegularList b →
    Decides (KeyValue.equalsLoop a b) (KeyValue.canonList a = KeyValue.canonList b)
  | [], [], _, _, _ => ⟨true, by simp [KeyValue.equalsLoop], by simp⟩
  | [], _ :: _, h, _, _ => by simp at h
  | _ :: _, [], h, _, _ => by simp at h
  | .mk k v :: ls, .mk k' v' :: rs, h, ha, hb => by
    simp only [KeyValue.equalsLoop, KeyValue.canonList, KeyValue.RegularList] at *
    exact ((lit_equals_spec k k' ha.1 hb.1).and ((lit_equals_spec v v' ha.2.1 hb.2.1).and
      (kv_loop_spec ls rs (by simpa using h) ha.2.2 hb.2.2))).congr (by simp [and_assoc])
end

theorem seg_isNil_canon (s : Seg) : s.canon.isNil = s.isNil := by cases s <;> rfl

theorem seg_isNil_iff (s : Seg) : s.isNil = true ↔ s = .nil := by cases s <;> simp [Seg.isNil]

/-- the comparison of the children -/
theorem seg_child {same : Seg → Seg → Bool} (hs : ∀ a b, same a b = true → a = b) (c c' : Seg)
    (ih : c.isNil = false → c'.isNil = false →
      Decides (Seg.equals same c c') (c.canon = c'.canon)) :
    Decides (if same c c' || (c.isNil && c'.isNil) then .ok true
         else if c.isNil || c'.isNil then .ok false else Seg.equals same c c')
      (c.canon = c'.canon) := by
  by_cases h : same c c' = true
  · have := hs _ _ h
    subst this
    rw [if_pos (by simp [h])]
    exact .yes rfl
  · have e1 := seg_isNil_canon c
    have e2 := seg_isNil_canon c'
    by_cases hc : c.isNil = true <;> by_cases hc' : c'.isNil = true <;> simp [h, hc, hc']
    · rw [seg_isNil_iff] at hc hc'
      subst hc; subst hc'
      exact ⟨true, rfl, by simp⟩
    · refine .of_false rfl (fun e => ?_)
      rw [e] at e1
      simp_all
    · refine .of_false rfl (fun e => ?_)
      rw [e] at e1
      simp_all
    · exact ih (by simpa using hc) (by simpa using hc')

theorem seg_equals_spec {same : Seg → Seg → Bool} (hs : ∀ a b, same a b = true → a = b) :
    ∀ a b : Seg, a.isNil = false → a.Regular → b.Regular →
      Decides (Seg.equals same a b) (a.canon = b.canon)
  | .nil, _, h, _, _ => by simp [Seg.isNil] at h
  | .mapKey k c, b, _, ha, hb => by
    cases b <;> try (refine .of_false ?_ ?_ <;> simp [Seg.equals, Seg.canon] <;> done)
    next k' c' =>
      simp only [Seg.equals, Seg.canon, Seg.Regular] at *
      exact ((lit_equals_spec k k' ha.1 hb.1).and
        (seg_child hs c c' (fun hc _ => seg_equals_spec hs c c' hc ha.2 hb.2))).congr (by simp)
  | .structField f c, b, _, ha, hb => by
    cases b <;> try (refine .of_false ?_ ?_ <;> simp [Seg.equals, Seg.canon] <;> done)
    next k' c' =>
      simp only [Seg.equals, Seg.canon, Seg.Regular] at *
      exact (Decides.guardNot
        (seg_child hs c c' (fun hc _ => seg_equals_spec hs c c' hc ha hb))).congr (by simp)
  | .listElement f c, b, _, ha, hb => by
    cases b <;> try (refine .of_false ?_ ?_ <;> simp [Seg.equals, Seg.canon] <;> done)
    next k' c' =>
      simp only [Seg.equals, Seg.canon, Seg.Regular] at *
      exact (Decides.guardNot
        (seg_child hs c c' (fun hc _ => seg_equals_spec hs c c' hc ha hb))).congr (by simp)

theorem ref_equals_spec {same : Seg → Seg → Bool} (hs : ∀ a b, same a b = true → a = b)
    (a b : ERef) (ha : a.Regular) (hb : b.Regular) :
    Decides (a.equals same b) (a.canon = b.canon) := by
  cases a <;> cases b <;> simp only [ERef.Regular, ERef.equals, ERef.canon] at *
  · exact (seg_equals_spec hs _ _ ha.1 ha.2 hb.2).congr (by simp)
  · exact .of_false rfl (by simp)
  · exact .of_false rfl (by simp)
  · exact Decides.beq.congr (by simp)

theorem expr_isNil_iff (e : Expr) : e.isNil = true ↔ e = .nil := by cases e <;> simp [Expr.isNil]

theorem not_isNil_of_regular {ar : UInt32 → Nat} {e : Expr} (h : e.Regular ar) :
    e.isNil = false := by cases e <;> simp [Expr.Regular, Expr.isNil] at *

theorem expr_isNil_canon (e : Expr) : e.canon.isNil = e.isNil := by cases e <;> simp [Expr.canon, Expr.isNil]

theorem relref_canon_iff (r r' : RelRef) : r.canon = r'.canon ↔ r.addr = r'.addr := by
  cases r; cases r'; simp [RelRef.canon]

/-- regular, or nil -/
def Expr.Opt (ar : UInt32 → Nat) (e : Expr) : Prop := e = .nil ∨ e.Regular ar

mutual
theorem expr_equals_spec {sh : Sharing} (hs : sh.Sound) {ar : UInt32 → Nat} : ∀ (a b : Expr),
    a.Regular ar → b.Opt ar → Decides (Expr.equals sh a b) (a.canon = b.canon)
  | .nil, _, h, _ => by simp [Expr.Regular] at h
  | .lit l, b, h, hb => by
    cases b <;> try (refine .of_false ?_ ?_ <;> simp [Expr.equals, Expr.canon] <;> done)
    simp only [Expr.equals, Expr.canon, Expr.Regular, Expr.Opt, reduceCtorEq, false_or] at *
    exact (lit_equals_spec _ _ h hb).congr (by simp)
  | .fieldRef root ref kt, b, h, hb => by
    cases b <;> try (refine .of_false ?_ ?_ <;> simp [Expr.equals, Expr.canon] <;> done)
    simp only [Expr.equals, Expr.canon, Expr.Regular, Expr.Opt, reduceCtorEq, false_or] at *
    exact ((root_equals_spec hs root _ h.1 hb.1).and
      (ref_equals_spec hs.1 _ _ h.2 hb.2)).congr (by simp)
  | .ifThen ifs els, b, h, hb => by
    cases b <;> try (refine .of_false ?_ ?_ <;> simp [Expr.equals, Expr.canon] <;> done)
    simp only [Expr.equals, Expr.canon, Expr.Regular, Expr.Opt, reduceCtorEq, false_or] at *
    have e := not_isNil_of_regular h.2
    simp only [e, Bool.false_eq_true, if_false]
    exact ((expr_equals_spec hs els _ h.2 (.inr hb.2)).and (.len len_of_pcanon
      (fun e => pair_loop_spec hs ifs _ e h.1 hb.1))).congr (by simp [and_comm])
  | .cast ty e f, b, h, hb => by
    cases b <;> try (refine .of_false ?_ ?_ <;> simp [Expr.equals, Expr.canon] <;> done)
    simp only [Expr.equals, Expr.canon, Expr.Regular, Expr.Opt, reduceCtorEq, false_or] at *
    exact ((equals_spec _ _ h.1).and ((expr_equals_spec hs e _ h.2 (.inr hb.2)).and
      ⟨_, rfl, beq_iff_eq⟩)).congr (by simp)
  | .dynParam ty r, b, h, hb => by
    cases b <;> try (refine .of_false ?_ ?_ <;> simp [Expr.equals, Expr.canon] <;> done)
    simp only [Expr.equals, Expr.canon, Expr.Regular, Expr.Opt, reduceCtorEq, false_or] at *
    exact (Decides.guard (equals_spec _ _ h)).congr (by simp [and_comm])
  | .switch m ifs els, b, h, hb => by
    cases b <;> try (refine .of_false ?_ ?_ <;> simp [Expr.equals, Expr.canon] <;> done)
    next m' ifs' els' =>
    simp only [Expr.equals, Expr.canon, Expr.Regular, Expr.Opt, reduceCtorEq, false_or] at *
    have he : Decides (if els.isNil then .ok els'.isNil else Expr.equals sh els els')
        (els.canon = els'.canon) := by
      by_cases e : els.isNil = true
      · simp only [e, if_true]
        refine ⟨_, rfl, ?_⟩
        have h1 := expr_isNil_canon els
        have h2 := expr_isNil_canon els'
        constructor
        · intro e'
          rw [expr_isNil_iff] at e e'
          rw [e, e']
        · intro e'
          rw [← h2, ← e', h1, e]
      · simp only [e]
        exact expr_equals_spec hs els els' (h.2.2.resolve_left e)
          (hb.2.2.imp_left (expr_isNil_iff _).1)
    exact ((expr_equals_spec hs m _ h.1 (.inr hb.1)).and (he.and (.len len_of_ccanon
      (fun e => case_loop_spec hs ifs _ e h.2.1 hb.2.1)))).congr
        (by simp only [Expr.switch.injEq]; tauto)
  | .singularOr v os, b, h, hb => by
    cases b <;> try (refine .of_false ?_ ?_ <;> simp [Expr.equals, Expr.canon] <;> done)
    simp only [Expr.equals, Expr.canon, Expr.Regular, Expr.Opt, reduceCtorEq, false_or] at *
    exact ((expr_equals_spec hs v _ h.1 (.inr hb.1)).and (.len len_of_ecanon
      (fun e => expr_loop_spec hs os _ e h.2 hb.2))).congr (by simp)
  | .multiOr vs os, b, h, hb => by
    cases b <;> try (refine .of_false ?_ ?_ <;> simp [Expr.equals, Expr.canon] <;> done)
    simp only [Expr.equals, Expr.canon, Expr.Regular, Expr.Opt, reduceCtorEq, false_or] at *
    exact ((Decides.len len_of_ecanon (fun e => expr_loop_spec hs vs _ e h.1 hb.1)).and
      (.len len_of_rcanon (fun e => row_loop_spec hs os _ e h.2 hb.2))).congr (by simp)
  | .mapE n v kvs, b, h, hb => by
    cases b <;> try (refine .of_false ?_ ?_ <;> simp [Expr.equals, Expr.canon] <;> done)
    simp only [Expr.equals, Expr.canon, Expr.Regular, Expr.Opt, reduceCtorEq, false_or] at *
    exact (Decides.guardNot (.len len_of_pcanon
      (fun e => pair_loop_spec hs kvs _ e h hb))).congr (by simp [and_assoc])
  | .structE n v fs, b, h, hb => by
    cases b <;> try (refine .of_false ?_ ?_ <;> simp [Expr.equals, Expr.canon] <;> done)
    simp only [Expr.equals, Expr.canon, Expr.Regular, Expr.Opt, reduceCtorEq, false_or] at *
    exact (Decides.guardNot (.len len_of_ecanon
      (fun e => expr_loop_spec hs fs _ e h hb))).congr (by simp [and_assoc])
  | .listE n v fs, b, h, hb => by
    cases b <;> try (refine .of_false ?_ ?_ <;> simp [Expr.equals, Expr.canon] <;> done)
    simp only [Expr.equals, Expr.canon, Expr.Regular, Expr.Opt, reduceCtorEq, false_or] at *
    exact (Decides.guardNot (.len len_of_ecanon
      (fun e => expr_loop_spec hs fs _ e h hb))).congr (by simp [and_assoc])
  | .scalar a args, b, h, hb => by
    cases b <;> try (refine .of_false ?_ ?_ <;> simp [Expr.equals, Expr.canon] <;> done)
    next a' args' =>
    simp only [Expr.equals, Expr.canon, Expr.Regular, Expr.Opt, reduceCtorEq, false_or] at *
    by_cases hf : a.funcRef = a'.funcRef
    · have hl : args.length = args'.length := by rw [h.2.1, hb.2.1, hf]
      exact (Decides.guardNot ((equals_spec _ _ h.1).and
        ((arg_loop_spec hs args args' hl h.2.2 hb.2.2).and .dec))).congr
        (by simp [FnAttrs.canon]; tauto)
    · exact .of_false (by simp [hf]) (by simp [FnAttrs.canon, hf])
  | .window a w args ss ps, b, h, hb => by
    cases b <;> try (refine .of_false ?_ ?_ <;> simp [Expr.equals, Expr.canon] <;> done)
    next a' w' args' ss' ps' =>
    simp only [Expr.equals, Expr.canon, Expr.Regular, Expr.Opt, reduceCtorEq, false_or] at *
    exact (Decides.guardNot ((equals_spec _ _ h.1).and (.guardNot (.guardNot (.guardNot
      ((Decides.len len_of_ecanon (fun e => expr_loop_spec hs ps _ e h.2.2.2 hb.2.2.2)).and
      ((Decides.len len_of_scanon (fun e => sort_loop_spec hs ss _ e h.2.2.1 hb.2.2.1)).and
      (.len len_of_acanon (fun e => arg_loop_spec hs args _ e h.2.1 hb.2.1))))))))).congr
        (by simp [FnAttrs.canon, WinAttrs.canon]; tauto)
  | .lambda n v ps body, b, h, hb => by
    cases b <;> try (refine .of_false ?_ ?_ <;> simp [Expr.equals, Expr.canon] <;> done)
    simp only [Expr.equals, Expr.canon, Expr.Regular, Expr.Opt, reduceCtorEq, false_or] at *
    exact ((equals_spec (.struct n v ps) _ (by simpa [Ty.PlanType] using h.1)).and
      (expr_equals_spec hs body _ h.2 (.inr hb.2))).congr (by simp [Ty.erase, and_assoc])
  | .scalarSubquery r, b, h, hb => by
    cases b <;> try (refine .of_false ?_ ?_ <;> simp [Expr.equals, Expr.canon] <;> done)
    simp only [Expr.equals, Expr.canon]
    exact Decides.beq.congr (by simp [relref_canon_iff])
  | .inPredicate ns r, b, h, hb => by
    cases b <;> try (refine .of_false ?_ ?_ <;> simp [Expr.equals, Expr.canon] <;> done)
    simp only [Expr.equals, Expr.canon, Expr.Regular, Expr.Opt, reduceCtorEq, false_or] at *
    exact (Decides.len (P := _ ∧ _) (fun p => len_of_ecanon p.1) (fun e =>
      (expr_loop_spec hs ns _ e h hb).and .beq)).congr (by simp [relref_canon_iff])
  | .setPredicate op r, b, h, hb => by
    cases b <;> try (refine .of_false ?_ ?_ <;> simp [Expr.equals, Expr.canon] <;> done)
    simp only [Expr.equals, Expr.canon]
    exact ⟨_, rfl, by simp [relref_canon_iff]⟩
  | .setComparison x y l r, b, h, hb => by
    cases b <;> try (refine .of_false ?_ ?_ <;> simp [Expr.equals, Expr.canon] <;> done)
    next x' y' l' r' =>
    simp only [Expr.equals, Expr.canon, Expr.Regular, Expr.Opt, reduceCtorEq, false_or] at *
    obtain ⟨hl, hr⟩ := h
    obtain ⟨hl', hr'⟩ := hb
    obtain ⟨q, rfl⟩ := Option.isSome_iff_exists.1 hr
    obtain ⟨q', rfl⟩ := Option.isSome_iff_exists.1 hr'
    simp only [not_isNil_of_regular hl, not_isNil_of_regular hl', Option.isNone_some, Bool.or_self,
      Bool.false_eq_true, if_false]
    exact (Decides.guard ((expr_equals_spec hs l l' hl (.inr hl')).and .dec)).congr
      (by simp [relref_canon_iff, and_assoc])
theorem expr_loop_spec {sh : Sharing} (hs : sh.Sound) {ar : UInt32 → Nat} : ∀ (a b : List Expr),
    a.length = b.length → Expr.RegularList ar a → Expr.RegularList ar b →
    Decides (Expr.equalsLoop sh a b) (Expr.canonList a = Expr.canonList b)
  | [], [], _, _, _ => ⟨true, by simp [Expr.equalsLoop], by simp⟩
  | [], _ :: _, h, _, _ => by simp at h
  | _ :: _, [], h, _, _ => by simp at h
  | l :: ls, r :: rs, h, ha, hb => by
    simp only [Expr.equalsLoop, Expr.canonList, Expr.RegularList] at *
    exact ((expr_equals_spec hs l r ha.1 (.inr hb.1)).and
      (expr_loop_spec hs ls rs (by simpa using h) ha.2 hb.2)).congr (by simp)
theorem pair_loop_spec {sh : Sharing} (hs : sh.Sound) {ar : UInt32 → Nat} : ∀ (a b : List EPair),
    a.length = b.length → EPair.RegularList ar a → EPair.RegularList ar b →
    Decides (EPair.equalsLoop sh a b) (EPair.canonList a = EPair.canonList b)
  | [], [], _, _, _ => ⟨true, by simp [EPair.equalsLoop], by simp⟩
  | [], _ :: _, h, _, _ => by simp at h
  | _ :: _, [], h, _, _ => by simp at h
  | .mk x y :: ls, .mk x' y' :: rs, h, ha, hb => by
    simp only [EPair.equalsLoop, EPair.canonList, EPair.RegularList] at *
    exact ((expr_equals_spec hs x _ ha.1 (.inr hb.1)).and
      ((expr_equals_spec hs y _ ha.2.1 (.inr hb.2.1)).and
      (pair_loop_spec hs ls rs (by simpa using h) ha.2.2 hb.2.2))).congr (by simp [and_assoc])
theorem case_loop_spec {sh : Sharing} (hs : sh.Sound) {ar : UInt32 → Nat} : ∀ (a b : List ECase),
    a.length = b.length → ECase.RegularList ar a → ECase.RegularList ar b →
    Decides (ECase.equalsLoop sh a b) (ECase.canonList a = ECase.canonList b)
  | [], [], _, _, _ => ⟨true, by simp [ECase.equalsLoop], by simp⟩
  | [], _ :: _, h, _, _ => by simp at h
  | _ :: _, [], h, _, _ => by simp at h
  | .mk x y :: ls, .mk x' y' :: rs, h, ha, hb => by
    simp only [ECase.equalsLoop, ECase.canonList, ECase.RegularList] at *
    exact ((lit_equals_spec x _ ha.1 hb.1).and
      ((expr_equals_spec hs y _ ha.2.1 (.inr hb.2.1)).and
      (case_loop_spec hs ls rs (by simpa using h) ha.2.2 hb.2.2))).congr (by simp [and_assoc])
theorem row_loop_spec {sh : Sharing} (hs : sh.Sound) {ar : UInt32 → Nat} : ∀ (a b : List ERow),
    a.length = b.length → ERow.RegularList ar a → ERow.RegularList ar b →
    Decides (ERow.equalsLoop sh a b) (ERow.canonList a = ERow.canonList b)
  | [], [], _, _, _ => ⟨true, by simp [ERow.equalsLoop], by simp⟩
  | [], _ :: _, h, _, _ => by simp at h
  | _ :: _, [], h, _, _ => by simp at h
  | .mk x :: ls, .mk x' :: rs, h, ha, hb => by
    simp only [ERow.equalsLoop, ERow.canonList, ERow.RegularList] at *
    exact ((Decides.len len_of_ecanon (fun e => expr_loop_spec hs x _ e ha.1 hb.1)).and
      (row_loop_spec hs ls rs (by simpa using h) ha.2 hb.2)).congr (by simp)
theorem root_equals_spec {sh : Sharing} (hs : sh.Sound) {ar : UInt32 → Nat} : ∀ (a b : ERoot),
    a.Regular ar → b.Regular ar → Decides (ERoot.equals sh a b) (a.canon = b.canon)
  | .rootReference, b, _, _ => by
    cases b <;> simp [ERoot.equals, ERoot.canon, Decides]
  | .outer n, b, _, _ => by
    cases b <;> simp [ERoot.equals, ERoot.canon, Decides]
  | .lambdaParam n, b, _, _ => by
    cases b <;> simp [ERoot.equals, ERoot.canon, Decides]
  | .expr e, b, h, hb => by
    cases b <;> try (refine .of_false ?_ ?_ <;> simp [ERoot.equals, ERoot.canon] <;> done)
    simp only [ERoot.equals, ERoot.canon, ERoot.Regular] at *
    exact (expr_equals_spec hs e _ h (.inr hb)).congr (by simp)
theorem arg_equals_spec {sh : Sharing} (hs : sh.Sound) {ar : UInt32 → Nat} : ∀ (a b : EArg),
    a.Regular ar → b.Regular ar → Decides (EArg.equals sh a b) (a.canon = b.canon)
  | .nil, b, _, _ => by
    cases b <;> simp [EArg.equals, EArg.canon, Decides]
  | .enum s, b, _, _ => by
    cases b <;> simp [EArg.equals, EArg.canon, Decides]
  | .type t, b, h, hb => by
    cases b <;> try (refine .of_false ?_ ?_ <;> simp [EArg.equals, EArg.canon] <;> done)
    next t' =>
    simp only [EArg.equals, EArg.canon, EArg.Regular] at *
    by_cases hsh : sh.arg (.type t) (.type t') = true
    · have := hs.2 _ _ hsh
      injection this with this
      subst this
      rw [if_pos hsh]
      exact .yes rfl
    · rw [if_neg hsh]
      exact (equals_spec t t' h).congr (by simp)
  | .expr e, b, h, hb => by
    cases b <;> try (refine .of_false ?_ ?_ <;> simp [EArg.equals, EArg.canon] <;> done)
    next e' =>
    simp only [EArg.equals, EArg.canon, EArg.Regular] at *
    by_cases hsh : sh.arg (.expr e) (.expr e') = true
    · have := hs.2 _ _ hsh
      injection this with this
      subst this
      rw [if_pos hsh]
      exact .yes rfl
    · rw [if_neg hsh]
      exact (expr_equals_spec hs e e' h (.inr hb)).congr (by simp)
theorem arg_loop_spec {sh : Sharing} (hs : sh.Sound) {ar : UInt32 → Nat} : ∀ (a b : List EArg),
    a.length = b.length → EArg.RegularList ar a → EArg.RegularList ar b →
    Decides (EArg.equalsLoop sh a b) (EArg.canonList a = EArg.canonList b)
  | [], [], _, _, _ => ⟨true, by simp [EArg.equalsLoop], by simp⟩
  | [], _ :: _, h, _, _ => by simp at h
  | _ :: _, [], h, _, _ => by simp at h
  | l :: ls, r :: rs, h, ha, hb => by
    simp only [EArg.equalsLoop, EArg.canonList, EArg.RegularList] at *
    exact ((arg_equals_spec hs l r ha.1 hb.1).and
      (arg_loop_spec hs ls rs (by simpa using h) ha.2 hb.2)).congr (by simp)
theorem sort_loop_spec {sh : Sharing} (hs : sh.Sound) {ar : UInt32 → Nat} : ∀ (a b : List ESort),
    a.length = b.length → ESort.RegularList ar a → ESort.RegularList ar b →
    Decides (ESort.equalsLoop sh a b) (ESort.canonList a = ESort.canonList b)
  | [], [], _, _, _ => ⟨true, by simp [ESort.equalsLoop], by simp⟩
  | [], _ :: _, h, _, _ => by simp at h
  | _ :: _, [], h, _, _ => by simp at h
  | .mk x k :: ls, .mk x' k' :: rs, h, ha, hb => by
    simp only [ESort.equalsLoop, ESort.canonList, ESort.RegularList] at *
    exact ((expr_equals_spec hs x _ ha.1 (.inr hb.1)).and (.guard
      (sort_loop_spec hs ls rs (by simpa using h) ha.2 hb.2))).congr (by simp [and_assoc])
end

/-! ## Types and constructors -/

theorem branchType_spec (k : Ty) : ∀ (cases : List ECase) (t0 : Option Ty),
    (cases ≠ [] ∨ ∃ t, t0 = some t ∧ t.SameKind k ∧ ¬ t.IsNullable) →
    (∀ c ∈ cases, ∃ u, c.result.getType = .ok u ∧ u.SameKind k) →
    ∃ t, ECase.branchType cases t0 = .ok (some t) ∧ t.SameKind k ∧
      (t.IsNullable ↔ ∃ c ∈ cases, ∃ u, c.result.getType = .ok u ∧ u.IsNullable)
  | [], t0, h, _ => by
    rcases h with h | ⟨t, rfl, hk, hn⟩
    · exact absurd rfl h
    · exact ⟨t, by simp [ECase.branchType], hk, by simp [hn]⟩
  | .mk l e :: cs, t0, _, h => by
    obtain ⟨u, hu, hk⟩ := h (.mk l e) (by simp)
    simp only [ECase.result] at hu
    by_cases hn : u.IsNullable
    · refine ⟨u, ?_, hk, ?_⟩
      · simp only [Ty.IsNullable] at hn
        simp [ECase.branchType, hu, hn]
      · simp only [hn, true_iff]
        exact ⟨.mk l e, by simp, u, by simpa [ECase.result] using hu, hn⟩
    · obtain ⟨t, ht, hk', hi⟩ := branchType_spec k cs (some u) (.inr ⟨u, rfl, hk, hn⟩)
        (fun c hc => h c (by simp [hc]))
      refine ⟨t, ?_, hk', ?_⟩
      · have hn' : ¬ u.nullability = NullabilityNullable := hn
        simpa [ECase.branchType, hu, hn'] using ht
      · rw [hi]
        constructor
        · rintro ⟨c, hc, r⟩; exact ⟨c, by simp [hc], r⟩
        · rintro ⟨c, hc, u', hu', hn'⟩
          rcases List.mem_cons.1 hc with rfl | hc
          · simp only [ECase.result, hu, Res.ok.injEq] at hu'
            subst hu'; exact absurd hn' hn
          · exact ⟨c, hc, u', hu', hn'⟩

theorem withNullability_sameKind (t : Ty) (n : Nullability) : (t.withNullability n).SameKind t := by
  cases t <;> simp [Ty.SameKind, Ty.Same, Ty.withNullability]

theorem withNullability_nullability (t : Ty) (n : Nullability) :
    (t.withNullability n).nullability = n := by
  cases t <;> simp [Ty.withNullability, Ty.nullability]

theorem touch_of_not_intervalDay {t : Ty} (h : ¬ t.IsIntervalDay) (n : Nullability) :
    t.touch n = t := by
  cases t <;> try rfl
  next k _ _ _ => cases k <;> first | rfl | exact absurd trivial h

theorem expr_touch_eq (n : Nullability) : ∀ (e : Expr) (t : Ty), e.getType = .ok t →
    ¬ t.IsIntervalDay → e.touch n = e
  | .nil, _, _, _ => rfl
  | .lit l, t, h, hd => by
    simp only [Expr.getType] at h
    cases l <;> simp [Lit.getType] at h <;> simp [Expr.touch, Lit.touch] <;>
      (subst h; exact touch_of_not_intervalDay hd n)
  | .fieldRef _ _ none, _, _, _ => rfl
  | .fieldRef _ _ (some _), t, h, hd => by
    simp only [Expr.getType, Res.ok.injEq] at h
    subst h
    simp [Expr.touch, touch_of_not_intervalDay hd]
  | .ifThen _ els, t, h, hd => by
    simp only [Expr.getType] at h
    simp [Expr.touch, expr_touch_eq n els t h hd]
  | .cast _ _ _, t, h, hd => by
    simp only [Expr.getType, Res.ok.injEq] at h
    subst h
    simp [Expr.touch, touch_of_not_intervalDay hd]
  | .dynParam _ _, t, h, hd => by
    simp only [Expr.getType, Res.ok.injEq] at h
    subst h
    simp [Expr.touch, touch_of_not_intervalDay hd]
  | .switch _ _ _, _, _, _ => rfl
  | .singularOr _ _, _, _, _ => rfl
  | .multiOr _ _, _, _, _ => rfl
  | .mapE _ _ _, _, _, _ => rfl
  | .structE _ _ _, _, _, _ => rfl
  | .listE _ _ _, _, _, _ => rfl
  | .scalar _ _, t, h, hd => by
    simp only [Expr.getType, Res.ok.injEq] at h
    subst h
    simp [Expr.touch, touch_of_not_intervalDay hd]
  | .window _ _ _ _ _, t, h, hd => by
    simp only [Expr.getType, Res.ok.injEq] at h
    subst h
    simp [Expr.touch, touch_of_not_intervalDay hd]
  | .lambda _ _ _ _, _, _, _ => rfl
  | .scalarSubquery _, _, _, _ => rfl
  | .inPredicate _ _, _, _, _ => rfl
  | .setPredicate _ _, _, _, _ => rfl
  | .setComparison _ _ _ _, _, _, _ => rfl

theorem checkCases_spec (mt out : Ty) (hp : out.PlanType) : ∀ (cases cases' : List ECase),
    checkCases mt (some out) cases = .ok cases' →
    (∀ c ∈ cases, ∀ u, c.result.getType = .ok u → ¬ u.IsIntervalDay) →
    cases'.map ECase.result = cases.map ECase.result ∧
    ∀ c ∈ cases, ∃ u, c.result.getType = .ok u ∧
      (u.withNullability NullabilityUnspecified).Same out
  | [], cases', h, _ => by simp [checkCases] at h; subst h; simp
  | .mk l e :: cs, cases', h, hd => by
    have hl : l ≠ .nil := by rintro rfl; simp [checkCases] at h
    have h2 : (if e.isNil then (.err : Res (List ECase)) else
          l.getType >>= fun lt =>
          mt.equals (lt.withNullability NullabilityUnspecified) >>= fun b =>
          if b then
              e.getType >>= fun t =>
              out.equals (t.withNullability NullabilityUnspecified) >>= fun b =>
              if b then
                checkCases mt (some out) cs >>= fun cs =>
                .ok (.mk (l.touch NullabilityUnspecified) (e.touch NullabilityUnspecified) :: cs)
              else .err
          else .err) = .ok cases' := by
      rw [← h]; cases l <;> first | exact absurd rfl hl | rfl
    clear h
    by_cases hn : e.isNil = true
    · simp [hn] at h2
    simp only [hn, if_false, Bool.false_eq_true] at h2
    obtain ⟨lt, _, h3⟩ := Res.bind_eq_ok.1 h2
    obtain ⟨b, _, h4⟩ := Res.bind_eq_ok.1 h3
    cases b <;> simp only [if_true, Bool.false_eq_true, if_false, reduceCtorEq] at h4
    obtain ⟨t, ht, h5⟩ := Res.bind_eq_ok.1 h4
    obtain ⟨b, hb, h6⟩ := Res.bind_eq_ok.1 h5
    cases b <;> simp only [if_true, Bool.false_eq_true, if_false, reduceCtorEq] at h6
    obtain ⟨cs', hcs, h7⟩ := Res.bind_eq_ok.1 h6
    injection h7 with h7
    obtain ⟨i1, i2⟩ := checkCases_spec mt out hp cs cs' hcs (fun c hc => hd c (by simp [hc]))
    have hto := expr_touch_eq NullabilityUnspecified e t ht
      (hd (.mk l e) (by simp) t (by simpa [ECase.result] using ht))
    refine ⟨by rw [← h7]; simp [ECase.result, hto, i1], ?_⟩
    intro c hc
    rcases List.mem_cons.1 hc with rfl | hc
    · refine ⟨t, by simpa [ECase.result] using ht, ?_⟩
      obtain ⟨r, hr, hi⟩ := equals_spec out (t.withNullability NullabilityUnspecified) hp
      rw [hb] at hr
      injection hr with hr
      exact (hi.1 hr.symm).symm
    · exact i2 c hc

theorem planType_withNullability (t : Ty) (n : Nullability) (h : t.PlanType) :
    (t.withNullability n).PlanType := by
  cases t <;> simp [Ty.withNullability, Ty.PlanType] at * <;> exact h

theorem exists_result_congr {a b : List ECase} (h : a.map ECase.result = b.map ECase.result)
    (P : Expr → Prop) : (∃ c ∈ a, P c.result) ↔ ∃ c ∈ b, P c.result := by
  have : (∃ e ∈ a.map ECase.result, P e) ↔ ∃ e ∈ b.map ECase.result, P e := by rw [h]
  simpa using this

theorem checkElsifs_spec (out : Ty) (hp : out.PlanType) : ∀ ps : List EPair,
    (∀ p ∈ ps, p.result.isNil = false → ∃ t, p.result.getType = .ok t) →
    checkElsifs out ps ≠ .panic ∧
    (checkElsifs out ps = .ok () ↔ ∀ p ∈ ps, p.cond.isNil = false ∧ p.result.isNil = false ∧
      ∃ t, p.result.getType = .ok t ∧ t.Same out)
  | [], _ => by simp [checkElsifs]
  | .mk a b :: ps, h => by
    obtain ⟨i1, i2⟩ := checkElsifs_spec out hp ps (fun p hp' => h p (by simp [hp']))
    simp only [checkElsifs]
    by_cases ha : a.isNil = true
    · simp [ha, EPair.cond]
    by_cases hb : b.isNil = true
    · simp [ha, hb, EPair.result]
    obtain ⟨t, ht⟩ := h (.mk a b) (by simp) (by simpa [EPair.result] using hb)
    simp only [EPair.result] at ht
    obtain ⟨r, hr, hi⟩ := equals_spec out t hp
    simp only [ha, hb, ht, hr, Res.ok_bind, Bool.false_eq_true, if_false]
    have ha' : a.isNil = false := by simpa using ha
    have hb' : b.isNil = false := by simpa using hb
    by_cases hr' : r = true
    · simp only [hr', if_true]
      refine ⟨i1, ?_⟩
      rw [i2]
      simp only [List.mem_cons, forall_eq_or_imp, EPair.cond, EPair.result, ha', hb', ht, true_and,
        Res.ok.injEq, exists_eq_left', Ty.Same]
      simp [(hi.1 hr').symm]
    · rw [if_neg hr']
      refine ⟨by simp, ?_⟩
      simp only [reduceCtorEq, List.mem_cons, forall_eq_or_imp, EPair.cond, EPair.result, ha', hb',
        ht, true_and, Res.ok.injEq, exists_eq_left', Ty.Same, false_iff, not_and]
      intro h1
      exact absurd (hi.2 h1.symm) hr'

end Verif

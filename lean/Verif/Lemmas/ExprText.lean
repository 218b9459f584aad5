import Verif.Spec.ExprText
import Verif.Lemmas.Literals
import Verif.Lemmas.ExprProto
/-!
# What reading guarantees about the texts of expressions
-/

namespace Verif

/-- the literal prints, or it is nil or a short decimal -/
def Lit.TextOr (f : TcFmt) (l : Lit) : Prop := l = .nil ∨ l.ShortDecimal ∨ ∃ s, l.string f = .ok s

/-- what reading guarantees for a node -/
def Expr.Origin (g : ExprFmt) : Expr → Prop
  | .lit l => l.TextOr g.lit
  | .fieldRef _ (.seg s) _ => s ≠ .nil ∧ ∀ k ∈ s.keyList, k.TextOr g.lit
  | .scalar a _ => a.declaration ≠ ""
  | .window a _ _ sorts _ => a.declaration ≠ "" ∧ ∀ e, ESort.mk e .nil ∉ sorts
  | _ => True

def Expr.AllOrigin (g : ExprFmt) (e : Expr) : Prop := ∀ x, Expr.Within x e → x.Origin g

theorem origin_of_parts {g : ExprFmt} {e : Expr} (hn : e.Origin g) (h : ∀ c ∈ e.parts, c.AllOrigin g) :
    e.AllOrigin g := by
  intro x hx
  cases hx with
  | refl => exact hn
  | part c e hc hx => exact h c hc x hx

theorem okText {r : Res Bytes} (h : r.isOk = true) : ∃ s, r = .ok s := by
  cases r <;> simp at h ⊢

theorem literal_text (f : TcFmt) {m : PLit} {l : Lit} (h : literalFromProto m = .ok l) : l.TextOr f := by
  cases m with
  | nil => simp [literalFromProto] at h
  | mk b v k =>
    cases k with
    | precisionTime p x | precisionTimestamp p x | precisionTimestampTz p x =>
      simp only [literalFromProto, literalKindFromProto, precisionFromProto, Res.ok.injEq] at h
      split at h
      · split at h
        · exact .inl h.symm
        · subst h; exact .inr (.inr (okText (by simp [Lit.string, Lit.getType, Lit.valueString, ProtoVal.valueString])))
      · exact .inl h.symm
    | intervalDayToSecond d =>
      simp only [literalFromProto, literalKindFromProto, intervalDayFromProto, Res.ok.injEq] at h
      split at h
      · split at h
        · subst h; exact .inr (.inr (okText (by simp [Lit.string, Lit.getType, Lit.valueString, ProtoVal.valueString])))
        · exact .inl h.symm
      · subst h; exact .inr (.inr (okText (by simp [Lit.string, Lit.getType, Lit.valueString, ProtoVal.valueString])))
    | intervalCompound y d =>
      simp only [literalFromProto, literalKindFromProto, intervalCompoundFromProto, Res.ok.injEq] at h
      split at h
      · subst h; exact .inr (.inr (okText (by simp [Lit.string, Lit.getType, Lit.valueString])))
      · split at h
        · subst h; exact .inr (.inr (okText (by simp [Lit.string, Lit.getType, Lit.valueString])))
        · exact .inl h.symm
    | decimal bs p s =>
      simp only [literalFromProto, literalKindFromProto, Res.ok.injEq] at h
      subst h
      by_cases hb : bs.length < 16
      · exact .inr (.inl ⟨_, _, _, _, _, rfl, hb⟩)
      · exact .inr (.inr (okText (by simp [Lit.string, Lit.getType, Lit.valueString, ProtoVal.valueString, hb])))
    | map kvs =>
      simp only [literalFromProto, literalKindFromProto, Res.bind_eq_ok] at h
      obtain ⟨ls, _, h⟩ := h
      match ls, h with
      | [], h => simp at h
      | .mk k e :: _, h =>
        simp only [Res.bind_eq_ok] at h
        obtain ⟨_, _, _, _, h⟩ := h
        cases h
        exact .inr (.inr (okText (by simp [Lit.string, Lit.getType, Lit.valueString])))
    | list vs =>
      simp only [literalFromProto, literalKindFromProto, Res.bind_eq_ok] at h
      obtain ⟨ls, _, h⟩ := h
      match ls, h with
      | [], h => simp at h
      | l :: _, h =>
        simp only [Res.bind_eq_ok] at h
        obtain ⟨_, _, h⟩ := h
        cases h
        exact .inr (.inr (okText (by simp [Lit.string])))
    | struct fs =>
      simp only [literalFromProto, literalKindFromProto, Res.bind_eq_ok] at h
      obtain ⟨ls, _, _, _, h⟩ := h
      cases h
      exact .inr (.inr (okText (by simp [Lit.string])))
    | emptyList t =>
      rcases t with _ | ⟨_, _, _⟩
      · simp [literalFromProto, literalKindFromProto] at h
      · simp only [literalFromProto, literalKindFromProto, Res.bind_eq_ok] at h
        obtain ⟨_, _, h⟩ := h
        cases h
        exact .inr (.inr (okText (by simp [Lit.string])))
    | emptyMap t =>
      rcases t with _ | ⟨_, _, _, _⟩
      · simp [literalFromProto, literalKindFromProto] at h
      · simp only [literalFromProto, literalKindFromProto, Res.bind_eq_ok] at h
        obtain ⟨_, _, _, _, h⟩ := h
        cases h
        exact .inr (.inr (okText (by simp [Lit.string, Lit.getType, Lit.valueString])))
    | null t =>
      simp only [literalFromProto, literalKindFromProto, Res.bind_eq_ok] at h
      obtain ⟨_, _, h⟩ := h
      cases h
      exact .inr (.inr (okText (by simp [Lit.string])))
    | userDefined r ps x =>
      simp only [literalFromProto, literalKindFromProto, Res.bind_eq_ok] at h
      obtain ⟨_, _, h⟩ := h
      cases h
      exact .inr (.inr (okText (by simp [Lit.string, Lit.getType, Lit.valueString, ProtoVal.valueString])))
    | unset => simp [literalFromProto, literalKindFromProto] at h
    | _ =>
      simp only [literalFromProto, literalKindFromProto, Res.ok.injEq] at h
      subst h
      exact .inr (.inr (okText (by simp [Lit.string, Lit.getType, Lit.valueString, ProtoVal.valueString])))

theorem seg_text (f : TcFmt) : ∀ (m : PSeg) (s : Seg), segFromProto m = .ok s → ∀ k ∈ s.keyList, k.TextOr f
  | .nil, s, h => by simp only [segFromProto] at h; cases h; simp [Seg.keyList]
  | .unset, s, h => by simp only [segFromProto] at h; cases h; simp [Seg.keyList]
  | .mapKey k c, s, h => by
      simp only [segFromProto, Res.bind_eq_ok] at h
      obtain ⟨l, hl, c', hc, h⟩ := h
      cases h
      simp only [Seg.keyList, List.mem_cons, forall_eq_or_imp]
      exact ⟨literal_text f hl, seg_text f c c' hc⟩
  | .structField i c, s, h => by
      simp only [segFromProto, Res.bind_eq_ok] at h
      obtain ⟨c', hc, h⟩ := h
      cases h
      exact seg_text f c c' hc
  | .listElement i c, s, h => by
      simp only [segFromProto, Res.bind_eq_ok] at h
      obtain ⟨c', hc, h⟩ := h
      cases h
      exact seg_text f c c' hc

theorem ref_origin (g : ExprFmt) {reg : Reg} {base : Option (List Ty)} {root : ERoot} {m : RefMsg}
    {f : ERef × Option Ty} (h : refFromProto reg base root m = .ok f) : (Expr.fieldRef root f.1 f.2).Origin g := by
  suffices hs : ∀ s, f.1 = .seg s → s ≠ .nil ∧ ∀ k ∈ s.keyList, k.TextOr g.lit by
    obtain ⟨r, t⟩ := f
    cases r with
    | seg s => exact hs s rfl
    | _ => trivial
  intro s hfs
  cases m with
  | unset => simp only [refFromProto] at h; cases h; simp at hfs
  | masked m => simp only [refFromProto] at h; cases h; simp at hfs
  | direct p =>
    simp only [refFromProto, Res.bind_eq_ok] at h
    obtain ⟨q, hq, h⟩ := h
    have key : f.1 = (if q.isNil then .nil else .seg q) := by
      cases root with
      | rootReference =>
        cases base with
        | none => simp only at h; cases h; rfl
        | some ts =>
          simp only at h
          by_cases hn : q.isNil = true
          · simp [hn] at h
          · simp only [hn, Bool.false_eq_true, if_false, Res.bind_eq_ok] at h
            obtain ⟨t, _, h⟩ := h
            cases h
            simp [hn]
      | expr e =>
        simp only [Res.bind_eq_ok] at h
        obtain ⟨t, _, h⟩ := h
        by_cases hn : q.isNil = true
        · simp [hn] at h
        · simp only [hn, Bool.false_eq_true, if_false, Res.bind_eq_ok] at h
          obtain ⟨t, _, h⟩ := h
          cases h
          simp [hn]
      | _ => simp only at h; cases h; rfl
    rw [hfs] at key
    by_cases hn : q.isNil = true
    · simp [hn] at key
    · simp only [hn, Bool.false_eq_true, if_false, ERef.seg.injEq] at key
      subst key
      exact ⟨by rintro rfl; exact hn rfl, seg_text g.lit p s hq⟩

theorem resolve_named {reg : Reg} {lookup : UInt32 → Option String} {r : UInt32} {f : UInt32 × String}
    (hc : ∀ id r n, reg.custom id = .ok (r, n) → n ≠ "") (hl : ∀ r n, lookup r = some n → n ≠ "")
    (h : resolveCall reg lookup r = .ok f) : f.2 ≠ "" := by
  unfold resolveCall at h
  split at h
  · simp at h
  · split at h
    · exact hc _ f.1 f.2 h
    · rename_i d hd
      cases h
      exact hl _ _ hd

theorem sorts_kinds (reg : Reg) (base : Option (List Ty)) : ∀ (ms : List SortMsg) (es : List ESort),
    ESort.fromProtoList reg base ms = .ok es → ∀ e, ESort.mk e .nil ∉ es
  | [], es, h => by simp only [ESort.fromProtoList] at h; cases h; simp
  | .mk x k :: ms, es, h => by
      simp only [ESort.fromProtoList, Res.bind_eq_ok] at h
      obtain ⟨a, ha, k', hk, b, hb, h⟩ := h
      cases h
      intro e he
      rcases List.mem_cons.1 he with he | he
      · cases he; cases k <;> simp [sortKindFromProto] at hk
      · exact sorts_kinds reg base ms b hb e he

mutual
theorem read_origin (g : ExprFmt) (reg : Reg) (hr : reg.Named) (base : Option (List Ty)) : ∀ (m : ExprMsg) (e : Expr),
    Expr.fromProto reg base m = .ok e → e.AllOrigin g
  | .nil, e, h => by simp [Expr.fromProto] at h
  | .unset, e, h => by simp [Expr.fromProto] at h
  | .lit m, e, h => by
      simp only [Expr.fromProto, Res.bind_eq_ok] at h
      obtain ⟨l, hq, h⟩ := h
      cases h
      cases l with
      | nil => exact origin_of_parts (by simp [Expr.ofLit, Expr.Origin]) (by simp [Expr.ofLit, Expr.parts])
      | _ =>
        exact origin_of_parts (by simpa only [Expr.ofLit, Expr.Origin] using literal_text g.lit hq)
          (by simp [Expr.ofLit, Expr.parts])
  | .selection root ref, e, h => by
      simp only [Expr.fromProto, Res.bind_eq_ok] at h
      obtain ⟨r, hro, f, hf, h⟩ := h
      cases h
      cases root with
      | expr m =>
        simp only [ERoot.fromProto, Res.bind_eq_ok] at hro
        obtain ⟨x, hx, hro⟩ := hro
        cases hro
        exact origin_of_parts (ref_origin g hf) (by simpa [Expr.parts] using read_origin g reg hr base m x hx)
      | _ =>
        simp only [ERoot.fromProto] at hro
        cases hro
        exact origin_of_parts (ref_origin g hf) (by simp [Expr.parts])
  | .scalar ref options out args, e, h => by
      simp only [Expr.fromProto, Res.bind_eq_ok] at h
      obtain ⟨as, has, h⟩ := h
      cases out with
      | none => simp at h
      | some out =>
        simp only [Res.bind_eq_ok] at h
        obtain ⟨f, hf, _, _, h⟩ := h
        cases h
        exact origin_of_parts (resolve_named hr.2.2 hr.1 hf) (read_originArgs g reg hr base args as has)
  | .window ref options out w args sorts parts, e, h => by
      simp only [Expr.fromProto, Res.bind_eq_ok] at h
      obtain ⟨as, has, ps, hps, ss, hss, h⟩ := h
      cases out with
      | none => simp at h
      | some out =>
        simp only [Res.bind_eq_ok] at h
        obtain ⟨f, hf, _, _, h⟩ := h
        cases h
        refine origin_of_parts ⟨resolve_named hr.2.2 hr.2.1 hf, sorts_kinds reg base sorts ss hss⟩ ?_
        intro c hc
        simp only [Expr.parts, List.mem_append] at hc
        rcases hc with (hc | hc) | hc
        · exact read_originArgs g reg hr base args as has c hc
        · exact read_originSorts g reg hr base sorts ss hss c hc
        · exact read_originList g reg hr base parts ps hps c hc
  | .ifThen ifs els, e, h => by
      simp only [Expr.fromProto, Res.bind_eq_ok] at h
      obtain ⟨a, ha, b, hb, h⟩ := h
      cases h
      refine origin_of_parts (by simp [Expr.Origin]) ?_
      intro c hc
      simp only [Expr.parts, List.mem_append, List.mem_singleton] at hc
      rcases hc with hc | rfl
      · exact read_originPairs g reg hr base ifs b hb c hc
      · exact read_origin g reg hr base els _ ha
  | .switch mt ifs els, e, h => by
      simp only [Expr.fromProto, Res.bind_eq_ok] at h
      obtain ⟨a, ha, b, hb, d, hd, h⟩ := h
      cases h
      refine origin_of_parts (by simp [Expr.Origin]) ?_
      intro c hc
      simp only [Expr.parts, List.cons_append, List.mem_cons, List.mem_append, List.not_mem_nil,
        or_false] at hc
      rcases hc with rfl | hc | rfl
      · exact read_origin g reg hr base mt _ ha
      · exact read_originCases g reg hr base ifs d hd c hc
      · exact read_origin g reg hr base els _ hb
  | .singularOr v os, e, h => by
      simp only [Expr.fromProto, Res.bind_eq_ok] at h
      obtain ⟨a, ha, b, hb, h⟩ := h
      cases h
      refine origin_of_parts (by simp [Expr.Origin]) ?_
      intro c hc
      simp only [Expr.parts, List.mem_cons] at hc
      rcases hc with rfl | hc
      · exact read_origin g reg hr base v _ ha
      · exact read_originList g reg hr base os b hb c hc
  | .multiOr v os, e, h => by
      simp only [Expr.fromProto, Res.bind_eq_ok] at h
      obtain ⟨a, ha, b, hb, h⟩ := h
      cases h
      refine origin_of_parts (by simp [Expr.Origin]) ?_
      intro c hc
      simp only [Expr.parts, List.mem_append] at hc
      rcases hc with hc | hc
      · exact read_originList g reg hr base v a ha c hc
      · exact read_originRows g reg hr base os b hb c hc
  | .cast ty input fail, e, h => by
      cases ty with
      | none => simp [Expr.fromProto] at h
      | some ty =>
        simp only [Expr.fromProto, Res.bind_eq_ok] at h
        obtain ⟨a, ha, _, _, h⟩ := h
        cases h
        exact origin_of_parts (by simp [Expr.Origin]) (by simpa [Expr.parts] using read_origin g reg hr base input a ha)
  | .mapE n v kvs, e, h => by
      cases kvs with
      | nil => simp [Expr.fromProto] at h
      | cons kv kvs =>
        simp only [Expr.fromProto, Res.bind_eq_ok] at h
        obtain ⟨a, ha, h⟩ := h
        cases h
        exact origin_of_parts (by simp [Expr.Origin]) (read_originPairs g reg hr base (kv :: kvs) a ha)
  | .structE n v fs, e, h => by
      simp only [Expr.fromProto, Res.bind_eq_ok] at h
      obtain ⟨a, ha, h⟩ := h
      cases h
      exact origin_of_parts (by simp [Expr.Origin]) (read_originList g reg hr base fs a ha)
  | .listE n v vs, e, h => by
      cases vs with
      | nil => simp [Expr.fromProto] at h
      | cons x xs =>
        simp only [Expr.fromProto, Res.bind_eq_ok] at h
        obtain ⟨a, ha, h⟩ := h
        cases h
        exact origin_of_parts (by simp [Expr.Origin]) (read_originList g reg hr base (x :: xs) a ha)
  | .dynParam ty ref, e, h => by
      simp only [Expr.fromProto, Res.bind_eq_ok] at h
      obtain ⟨l, _, h⟩ := h
      cases h
      exact origin_of_parts (by simp [Expr.Origin]) (by simp [Expr.parts])
  | .scalarSubquery r, e, h => by
      simp only [Expr.fromProto, Res.bind_eq_ok] at h
      obtain ⟨l, _, h⟩ := h
      cases h
      exact origin_of_parts (by simp [Expr.Origin]) (by simp [Expr.parts])
  | .inPredicate ns r, e, h => by
      simp only [Expr.fromProto, Res.bind_eq_ok] at h
      obtain ⟨a, ha, _, _, h⟩ := h
      cases h
      exact origin_of_parts (by simp [Expr.Origin]) (read_originList g reg hr base ns a ha)
  | .setPredicate op r, e, h => by
      simp only [Expr.fromProto, Res.bind_eq_ok] at h
      obtain ⟨l, _, h⟩ := h
      cases h
      exact origin_of_parts (by simp [Expr.Origin]) (by simp [Expr.parts])
  | .setComparison red cmp l r, e, h => by
      simp only [Expr.fromProto, Res.bind_eq_ok] at h
      obtain ⟨a, ha, _, _, h⟩ := h
      cases h
      exact origin_of_parts (by simp [Expr.Origin]) (by simpa [Expr.parts] using read_origin g reg hr base l a ha)
  | .lambda params body, e, h => by
      match params with
      | none => simp [Expr.fromProto] at h
      | some (n, v, ps) =>
        simp only [Expr.fromProto] at h
        split at h
        · simp at h
        · simp only [Res.bind_eq_ok] at h
          obtain ⟨_, _, h⟩ := h
          split at h
          · simp at h
          · simp only [Res.bind_eq_ok] at h
            obtain ⟨a, ha, h⟩ := h
            cases h
            exact origin_of_parts (by simp [Expr.Origin])
              (by simpa [Expr.parts] using read_origin g reg hr base body a ha)
theorem read_originList (g : ExprFmt) (reg : Reg) (hr : reg.Named) (base : Option (List Ty)) : ∀ (ms : List ExprMsg)
    (es : List Expr), Expr.fromProtoList reg base ms = .ok es → ∀ c ∈ es, c.AllOrigin g
  | [], es, h => by simp only [Expr.fromProtoList] at h; cases h; simp
  | m :: ms, es, h => by
      simp only [Expr.fromProtoList, Res.bind_eq_ok] at h
      obtain ⟨a, ha, b, hb, h⟩ := h
      cases h
      simp only [List.mem_cons, forall_eq_or_imp]
      exact ⟨read_origin g reg hr base m a ha, read_originList g reg hr base ms b hb⟩
theorem read_originPairs (g : ExprFmt) (reg : Reg) (hr : reg.Named) (base : Option (List Ty)) : ∀ (ms : List PairMsg)
    (es : List EPair), EPair.fromProtoList reg base ms = .ok es →
    ∀ c ∈ es.flatMap EPair.exprs, c.AllOrigin g
  | [], es, h => by simp only [EPair.fromProtoList] at h; cases h; simp
  | .mk x y :: ms, es, h => by
      simp only [EPair.fromProtoList, Res.bind_eq_ok] at h
      obtain ⟨a, ha, b, hb, d, hd, h⟩ := h
      cases h
      simp only [List.flatMap_cons, EPair.exprs, List.cons_append, List.nil_append, List.mem_cons,
        forall_eq_or_imp]
      exact ⟨read_origin g reg hr base x a ha, read_origin g reg hr base y b hb,
        read_originPairs g reg hr base ms d hd⟩
theorem read_originCases (g : ExprFmt) (reg : Reg) (hr : reg.Named) (base : Option (List Ty)) : ∀ (ms : List CaseMsg)
    (es : List ECase), ECase.fromProtoList reg base ms = .ok es →
    ∀ c ∈ es.flatMap ECase.exprs, c.AllOrigin g
  | [], es, h => by simp only [ECase.fromProtoList] at h; cases h; simp
  | .mk x y :: ms, es, h => by
      simp only [ECase.fromProtoList, Res.bind_eq_ok] at h
      obtain ⟨a, ha, b, hb, d, hd, h⟩ := h
      cases h
      simp only [List.flatMap_cons, List.mem_append]
      rintro c (hc | hc)
      · have : c = b ∨ c = .lit a := by simpa [ECase.exprs, or_comm] using hc
        rcases this with rfl | rfl
        · exact read_origin g reg hr base y _ hb
        · exact origin_of_parts (by simpa only [Expr.Origin] using literal_text g.lit ha) (by simp [Expr.parts])
      · exact read_originCases g reg hr base ms d hd c hc
theorem read_originRows (g : ExprFmt) (reg : Reg) (hr : reg.Named) (base : Option (List Ty)) : ∀ (ms : List RowMsg)
    (es : List ERow), ERow.fromProtoList reg base ms = .ok es →
    ∀ c ∈ es.flatMap ERow.exprs, c.AllOrigin g
  | [], es, h => by simp only [ERow.fromProtoList] at h; cases h; simp
  | .mk x :: ms, es, h => by
      simp only [ERow.fromProtoList, Res.bind_eq_ok] at h
      obtain ⟨a, ha, b, hb, h⟩ := h
      cases h
      simp only [List.flatMap_cons, ERow.exprs, List.mem_append]
      rintro c (hc | hc)
      · exact read_originList g reg hr base x a ha c hc
      · exact read_originRows g reg hr base ms b hb c hc
theorem read_originArgs (g : ExprFmt) (reg : Reg) (hr : reg.Named) (base : Option (List Ty)) : ∀ (ms : List ArgMsg)
    (es : List EArg), EArg.fromProtoList reg base ms = .ok es →
    ∀ c ∈ es.flatMap EArg.exprs, c.AllOrigin g
  | [], es, h => by simp only [EArg.fromProtoList] at h; cases h; simp
  | m :: ms, es, h => by
      simp only [EArg.fromProtoList, Res.bind_eq_ok] at h
      obtain ⟨a, ha, b, hb, h⟩ := h
      cases h
      simp only [List.flatMap_cons, List.mem_append]
      rintro c (hc | hc)
      · cases m with
        | unset => simp [EArg.fromProto] at ha
        | enum s => simp only [EArg.fromProto] at ha; cases ha; simp [EArg.exprs] at hc
        | type t =>
          simp only [EArg.fromProto, Res.bind_eq_ok] at ha
          obtain ⟨_, _, ha⟩ := ha
          cases ha
          simp [EArg.exprs] at hc
        | value m =>
          simp only [EArg.fromProto, Res.bind_eq_ok] at ha
          obtain ⟨x, hx, ha⟩ := ha
          cases ha
          have hc : c = x := by
            cases x <;> simp only [EArg.ofExpr, EArg.exprs, List.mem_singleton, List.not_mem_nil] at hc <;> exact hc
          subst hc
          exact read_origin g reg hr base m _ hx
      · exact read_originArgs g reg hr base ms b hb c hc
theorem read_originSorts (g : ExprFmt) (reg : Reg) (hr : reg.Named) (base : Option (List Ty)) : ∀ (ms : List SortMsg)
    (es : List ESort), ESort.fromProtoList reg base ms = .ok es →
    ∀ c ∈ es.map ESort.expr, c.AllOrigin g
  | [], es, h => by simp only [ESort.fromProtoList] at h; cases h; simp
  | .mk x k :: ms, es, h => by
      simp only [ESort.fromProtoList, Res.bind_eq_ok] at h
      obtain ⟨a, ha, k', _, b, hb, h⟩ := h
      cases h
      simp only [List.map_cons, ESort.expr, List.mem_cons, forall_eq_or_imp]
      exact ⟨read_origin g reg hr base x a ha, read_originSorts g reg hr base ms b hb⟩
end

end Verif

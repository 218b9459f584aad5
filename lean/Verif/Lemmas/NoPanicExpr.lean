import Verif.Lemmas.NoPanic
/-!
# Reading expressions without a panic
-/

namespace Verif

/-- The expression has a plan type. -/
def Expr.HasType (e : Expr) : Prop := ∃ t, e.getType = .ok t ∧ t.PlanType

/-- Not a panic, and a value satisfies `P`. -/
def Fine (r : Res α) (P : α → Prop) : Prop := r ≠ .panic ∧ ∀ a, r = .ok a → P a

theorem fine_ok {a : α} {P : α → Prop} (h : P a) : Fine (.ok a) P :=
  ⟨by simp, fun b hb => by cases hb; exact h⟩

theorem fine_err {P : α → Prop} : Fine (.err : Res α) P := ⟨by simp, fun b hb => by cases hb⟩

theorem fine_bind {x : Res α} {f : α → Res β} {P : α → Prop} {Q : β → Prop} (hx : Fine x P)
    (hf : ∀ a, x = .ok a → P a → Fine (f a) Q) : Fine (x >>= f) Q := by
  cases h : x with
  | ok a => rw [Res.ok_bind]; exact hf a h (hx.2 a h)
  | err => rw [Res.err_bind]; exact fine_err
  | panic => exact absurd h hx.1

theorem fine_imp {x : Res α} {P Q : α → Prop} (hx : Fine x P) (h : ∀ a, P a → Q a) : Fine x Q :=
  ⟨hx.1, fun a ha => h a (hx.2 a ha)⟩

theorem fine_type {m : PTy} (h : m.Complete) : Fine (typeFromProto m) Ty.PlanType := by
  obtain ⟨t, ht, hp⟩ := typeFromProto_complete m h
  rw [ht]; exact fine_ok hp

theorem fine_lit {m : PLit} (h : m.Complete) :
    Fine (literalFromProto m) (fun l => ∃ t, l.getType = .ok t ∧ t.PlanType) := by
  obtain ⟨l, t, h1, h2, h3⟩ := literal_complete m h
  rw [h1]; exact fine_ok ⟨t, h2, h3⟩

theorem fine_resolve {reg : Reg} {lookup : UInt32 → Option String} {ref : UInt32}
    (h : Nameable reg lookup ref) : Fine (resolveCall reg lookup ref) (fun _ => True) := by
  unfold resolveCall
  split
  · exact fine_err
  · rename_i id hid
    split
    · rename_i hl
      obtain ⟨a, ha⟩ := h id hid hl
      rw [ha]
      exact fine_ok trivial
    · exact fine_ok trivial

theorem fine_any {x : Res α} (h : x ≠ .panic) : Fine x (fun _ => True) := ⟨h, fun _ _ => trivial⟩

/-- A root that may be resolved. -/
def ERoot.Known : ERoot → Prop
  | .expr e => e.HasType
  | _ => True

theorem fine_ref (reg : Reg) (base : Option (List Ty)) (hb : ∀ ts, base = some ts → Ty.PlanTypeList ts)
    (root : ERoot) (hr : root.Known) (m : RefMsg) (hm : m.Complete) :
    Fine (refFromProto reg base root m) (fun r =>
      m.IsDirect → ((root = .rootReference ∧ base.isSome = true) ∨ ∃ e, root = .expr e) →
        ∃ t, r.2 = some t ∧ t.PlanType) := by
  cases m with
  | unset => exact fine_ok (fun h => absurd h (by simp [RefMsg.IsDirect]))
  | masked k => exact fine_ok (fun h => absurd h (by simp [RefMsg.IsDirect]))
  | direct s =>
    obtain ⟨h1, h2, h3⟩ := hm
    obtain ⟨s', hs, hk, hn⟩ := seg_complete s h3
    have hn := hn h1 h2
    simp only [refFromProto]
    rw [hs, Res.ok_bind]
    simp only [hn, Bool.false_eq_true, if_false]
    cases root with
    | rootReference =>
      cases base with
      | none => exact fine_ok (by simp)
      | some ts =>
        obtain ⟨g1, g2⟩ := seg_getType_ok s' (.struct NullabilityRequired 0 ts) hn hk
          (by simpa [Ty.PlanType] using hb ts rfl)
        refine fine_bind (P := Ty.PlanType) ⟨g1, g2⟩ (fun t _ ht => fine_ok ?_)
        exact fun _ _ => ⟨t, rfl, ht⟩
    | expr e =>
      obtain ⟨u, hu, hp⟩ := hr
      simp only [hu, Res.ok_bind]
      obtain ⟨g1, g2⟩ := seg_getType_ok s' u hn hk hp
      refine fine_bind (P := Ty.PlanType) ⟨g1, g2⟩ (fun t _ ht => fine_ok ?_)
      exact fun _ _ => ⟨t, rfl, ht⟩
    | outer n => exact fine_ok (by simp)
    | lambdaParam n => exact fine_ok (by simp)

/-- Every case has a result of a plan type. -/
def ECase.HasTypes (cs : List ECase) : Prop := ∀ c ∈ cs, ∀ l e, c = .mk l e → e.HasType

theorem branchType_ok : ∀ (cs : List ECase) (o : Option Ty), ECase.HasTypes cs →
    (∀ t, o = some t → t.PlanType) →
    ∃ o', ECase.branchType cs o = .ok o' ∧ (∀ t, o' = some t → t.PlanType) ∧
      (o' = none → cs = [] ∧ o = none)
  | [], o, _, ho => ⟨o, by rw [ECase.branchType], ho, fun h => ⟨rfl, h⟩⟩
  | .mk l e :: cs, o, h, _ => by
      obtain ⟨t, ht, hp⟩ := h (.mk l e) (by simp) l e rfl
      rw [ECase.branchType, ht, Res.ok_bind]
      split
      · exact ⟨some t, rfl, fun u hu => by cases hu; exact hp, by simp⟩
      · obtain ⟨o', h1, h2, h3⟩ := branchType_ok cs (some t) (fun c hc => h c (by simp [hc]))
          (fun u hu => by cases hu; exact hp)
        exact ⟨o', h1, h2, fun hn => absurd (h3 hn).2 (by simp)⟩

theorem switch_hasType {m : Expr} {cs : List ECase} {els : Expr} (hc : ECase.HasTypes cs)
    (hne : cs ≠ []) (he : els.HasType) : (Expr.switch m cs els).HasType := by
  obtain ⟨o, h1, h2, h3⟩ := branchType_ok cs none hc (by simp)
  unfold Expr.HasType
  rw [Expr.getType, h1, Res.ok_bind]
  cases o with
  | none => exact absurd (h3 rfl).1 hne
  | some t =>
    simp only
    split
    · exact ⟨_, rfl, planType_withNullability t _ (h2 t rfl)⟩
    · split
      · exact ⟨t, rfl, h2 t rfl⟩
      · exact he

theorem getTypes_ok : ∀ (es : List Expr), (∀ e ∈ es, e.HasType) →
    ∃ ts, Expr.getTypes es = .ok ts ∧ Ty.PlanTypeList ts
  | [], _ => ⟨[], by rw [Expr.getTypes], by simp [Ty.PlanTypeList]⟩
  | e :: es, h => by
      obtain ⟨t, ht, hp⟩ := h e (by simp)
      obtain ⟨ts, hts, hq⟩ := getTypes_ok es (fun x hx => h x (by simp [hx]))
      exact ⟨t :: ts, by rw [Expr.getTypes, ht, Res.ok_bind, hts]; rfl,
        by simp [Ty.PlanTypeList, hp, hq]⟩

theorem bool_planType : (Ty.prim .boolean NullabilityRequired 0).PlanType := by simp [Ty.PlanType]

section
variable (reg : Reg) (base : Option (List Ty)) (hb : ∀ ts, base = some ts → Ty.PlanTypeList ts)
include hb

mutual
theorem expr_safe : ∀ (m : ExprMsg), m.Safe reg base.isSome →
    Fine (Expr.fromProto reg base m) (fun e => m.Typed reg base.isSome → e.HasType)
  | .nil, _ => by rw [Expr.fromProto]; exact fine_err
  | .unset, _ => by rw [Expr.fromProto]; exact fine_err
  | .lit l, h => by
      simp only [ExprMsg.Safe] at h
      rw [Expr.fromProto]
      refine fine_bind (fine_lit h) (fun l _ hl => fine_ok fun _ => ?_)
      obtain ⟨t, ht, hp⟩ := hl
      have : Expr.ofLit l = .lit l := by cases l <;> first | rfl | simp [Lit.getType] at ht
      rw [this]
      exact ⟨t, by rw [Expr.getType]; exact ht, hp⟩
  | .selection root ref, h => by
      simp only [ExprMsg.Safe] at h
      rw [Expr.fromProto]
      refine fine_bind (root_safe root h.1) (fun r _ hr => ?_)
      refine fine_bind (fine_ref reg base hb r hr.1 ref h.2) (fun x _ hx => fine_ok fun ht => ?_)
      simp only [ExprMsg.Typed] at ht
      obtain ⟨t, h1, hp⟩ := hx ht.2 (hr.2 ht.1)
      exact ⟨t, by rw [h1, Expr.getType], hp⟩
  | .scalar ref options out args, h => by
      simp only [ExprMsg.Safe] at h
      rw [Expr.fromProto]
      refine fine_bind (args_safe args h.2.2) (fun as _ _ => ?_)
      cases out with
      | none => exact fine_err
      | some out =>
        refine fine_bind (fine_resolve h.1) (fun f _ _ => ?_)
        refine fine_bind (fine_type (h.2.1 out rfl)) (fun t _ ht => fine_ok fun _ => ?_)
        exact ⟨t, by rw [Expr.getType], ht⟩
  | .window ref options out w args sorts parts, h => by
      simp only [ExprMsg.Safe] at h
      rw [Expr.fromProto]
      refine fine_bind (args_safe args h.2.2.1) (fun as _ _ => ?_)
      refine fine_bind (list_safe parts h.2.2.2.2) (fun ps _ _ => ?_)
      refine fine_bind (sorts_safe sorts h.2.2.2.1) (fun ss _ _ => ?_)
      cases out with
      | none => exact fine_err
      | some out =>
        refine fine_bind (fine_resolve h.1) (fun f _ _ => ?_)
        refine fine_bind (fine_type (h.2.1 out rfl)) (fun t _ ht => fine_ok fun _ => ?_)
        exact ⟨t, by rw [Expr.getType], ht⟩
  | .ifThen ifs els, h => by
      simp only [ExprMsg.Safe] at h
      rw [Expr.fromProto]
      refine fine_bind (expr_safe els h.2) (fun e _ he => ?_)
      refine fine_bind (pairs_safe ifs h.1) (fun ps _ _ => fine_ok fun ht => ?_)
      simp only [ExprMsg.Typed] at ht
      obtain ⟨t, h1, hp⟩ := he ht
      exact ⟨t, by rw [Expr.getType]; exact h1, hp⟩
  | .switch mtch ifs els, h => by
      simp only [ExprMsg.Safe] at h
      rw [Expr.fromProto]
      refine fine_bind (expr_safe mtch h.1) (fun m _ _ => ?_)
      refine fine_bind (expr_safe els h.2.2) (fun e _ he => ?_)
      refine fine_bind (cases_safe ifs h.2.1) (fun cs _ hcs => fine_ok fun ht => ?_)
      simp only [ExprMsg.Typed] at ht
      exact switch_hasType (hcs.2 ht.2.1) (fun hn => ht.1 (hcs.1 hn)) (he ht.2.2)
  | .singularOr value options, h => by
      simp only [ExprMsg.Safe] at h
      rw [Expr.fromProto]
      refine fine_bind (expr_safe value h.1) (fun v _ _ => ?_)
      refine fine_bind (list_safe options h.2) (fun os _ _ => fine_ok fun _ => ?_)
      exact ⟨_, by rw [Expr.getType], bool_planType⟩
  | .multiOr value options, h => by
      simp only [ExprMsg.Safe] at h
      rw [Expr.fromProto]
      refine fine_bind (list_safe value h.1) (fun v _ _ => ?_)
      refine fine_bind (rows_safe options h.2) (fun os _ _ => fine_ok fun _ => ?_)
      exact ⟨_, by rw [Expr.getType], bool_planType⟩
  | .cast none input fail, _ => by rw [Expr.fromProto]; exact fine_err
  | .cast (some ty) input fail, h => by
      simp only [ExprMsg.Safe] at h
      rw [Expr.fromProto]
      refine fine_bind (expr_safe input h.2) (fun i _ _ => ?_)
      refine fine_bind (fine_type (h.1 ty rfl)) (fun t _ ht => fine_ok fun _ => ?_)
      exact ⟨t, by rw [Expr.getType], ht⟩
  | .mapE n v [], _ => by rw [Expr.fromProto]; exact fine_err
  | .mapE n v (kv :: kvs), h => by
      simp only [ExprMsg.Safe] at h
      rw [Expr.fromProto]
      refine fine_bind (pairs_safe (kv :: kvs) h) (fun ps _ hps => fine_ok fun ht => ?_)
      simp only [ExprMsg.Typed] at ht
      obtain ⟨a, b, rest, rfl, ⟨ta, ha, hpa⟩, ⟨tb, hb', hpb⟩⟩ := hps (by simp) ht
      exact ⟨.map (getNullability n) v ta tb, by
        rw [Expr.getType, ha, Res.ok_bind, hb']; rfl, by simp [Ty.PlanType, hpa, hpb]⟩
  | .structE n v fs, h => by
      simp only [ExprMsg.Safe] at h
      rw [Expr.fromProto]
      refine fine_bind (list_safe fs h) (fun es _ hes => fine_ok fun ht => ?_)
      simp only [ExprMsg.Typed] at ht
      obtain ⟨ts, h1, h2⟩ := getTypes_ok es (hes.2 ht)
      exact ⟨_, by rw [Expr.getType, h1]; rfl, by simpa [Ty.PlanType] using h2⟩
  | .listE n v [], _ => by rw [Expr.fromProto]; exact fine_err
  | .listE n v (x :: xs), h => by
      simp only [ExprMsg.Safe] at h
      rw [Expr.fromProto]
      refine fine_bind (list_safe (x :: xs) h) (fun es _ hes => fine_ok fun ht => ?_)
      simp only [ExprMsg.Typed] at ht
      cases es with
      | nil => exact absurd hes.1 (by simp)
      | cons e es =>
        obtain ⟨t, h1, h2⟩ := hes.2 ht e (by simp)
        exact ⟨.list (getNullability n) v t, by rw [Expr.getType, h1]; rfl, by simpa [Ty.PlanType] using h2⟩
  | .dynParam ty ref, h => by
      simp only [ExprMsg.Safe] at h
      rw [Expr.fromProto]
      refine fine_bind (fine_type h) (fun t _ ht => fine_ok fun _ => ?_)
      exact ⟨t, by rw [Expr.getType], ht⟩
  | .scalarSubquery m, h => by
      simp only [ExprMsg.Safe] at h
      rw [Expr.fromProto]
      refine fine_bind (fine_any h) (fun r hr _ => fine_ok fun ht => ?_)
      simp only [ExprMsg.Typed] at ht
      obtain ⟨t, h1, h2⟩ := ht r hr
      exact ⟨t, by rw [Expr.getType, h1], h2⟩
  | .inPredicate ns m, h => by
      simp only [ExprMsg.Safe] at h
      rw [Expr.fromProto]
      refine fine_bind (list_safe ns h.1) (fun es _ _ => ?_)
      refine fine_bind (fine_any h.2) (fun r hr _ => fine_ok fun ht => ?_)
      exact ⟨_, by rw [Expr.getType], bool_planType⟩
  | .setPredicate op m, h => by
      simp only [ExprMsg.Safe] at h
      rw [Expr.fromProto]
      refine fine_bind (fine_any h) (fun r hr _ => fine_ok fun ht => ?_)
      exact ⟨_, by rw [Expr.getType], bool_planType⟩
  | .setComparison red cmp l m, h => by
      simp only [ExprMsg.Safe] at h
      rw [Expr.fromProto]
      refine fine_bind (expr_safe l h.1) (fun es _ _ => ?_)
      refine fine_bind (fine_any h.2) (fun r hr _ => fine_ok fun ht => ?_)
      exact ⟨_, by rw [Expr.getType], bool_planType⟩
  | .lambda none body, _ => by rw [Expr.fromProto]; exact fine_err
  | .lambda (some (n, v, ps)) body, h => by
      simp only [ExprMsg.Safe] at h
      rw [Expr.fromProto]
      split
      · exact fine_err
      · obtain ⟨ts, h1, h2, -⟩ := mapL_types_complete ps (h.1 n v ps rfl)
        rw [h1, Res.ok_bind]
        split
        · exact fine_err
        · refine fine_bind (expr_safe body h.2) (fun b _ hbt => fine_ok fun ht => ?_)
          simp only [ExprMsg.Typed] at ht
          obtain ⟨t, g1, g2⟩ := hbt ht
          exact ⟨_, by rw [Expr.getType, g1]; rfl, by simp [Ty.PlanType, h2, g2]⟩
theorem list_safe : ∀ (ms : List ExprMsg), ExprMsg.SafeList reg base.isSome ms →
    Fine (Expr.fromProtoList reg base ms) (fun es => es.length = ms.length ∧
      (ExprMsg.TypedList reg base.isSome ms → ∀ e ∈ es, e.HasType))
  | [], _ => by rw [Expr.fromProtoList]; exact fine_ok ⟨rfl, by simp⟩
  | m :: ms, h => by
      simp only [ExprMsg.SafeList] at h
      rw [Expr.fromProtoList]
      refine fine_bind (expr_safe m h.1) (fun e _ he => ?_)
      refine fine_bind (list_safe ms h.2) (fun es _ hes => fine_ok ⟨by simp [hes.1], fun ht => ?_⟩)
      simp only [ExprMsg.TypedList] at ht
      intro x hx
      rcases List.mem_cons.1 hx with rfl | hx
      · exact he ht.1
      · exact hes.2 ht.2 x hx
theorem pairs_safe : ∀ (ms : List PairMsg), PairMsg.SafeList reg base.isSome ms →
    Fine (EPair.fromProtoList reg base ms) (fun es => ms ≠ [] →
      PairMsg.TypedList reg base.isSome ms →
      ∃ a b rest, es = .mk a b :: rest ∧ a.HasType ∧ b.HasType)
  | [], _ => by rw [EPair.fromProtoList]; exact fine_ok (by simp)
  | .mk a b :: ms, h => by
      simp only [PairMsg.SafeList] at h
      rw [EPair.fromProtoList]
      refine fine_bind (expr_safe a h.1) (fun x _ hx => ?_)
      refine fine_bind (expr_safe b h.2.1) (fun y _ hy => ?_)
      refine fine_bind (pairs_safe ms h.2.2) (fun es _ _ => fine_ok fun _ ht => ?_)
      simp only [PairMsg.TypedList] at ht
      exact ⟨x, y, es, rfl, hx ht.1, hy ht.2.1⟩
theorem cases_safe : ∀ (ms : List CaseMsg), CaseMsg.SafeList reg base.isSome ms →
    Fine (ECase.fromProtoList reg base ms) (fun es => (es = [] → ms = []) ∧
      (CaseMsg.TypedList reg base.isSome ms → ECase.HasTypes es))
  | [], _ => by rw [ECase.fromProtoList]; exact fine_ok ⟨fun _ => rfl, fun _ c hc => by simp at hc⟩
  | .mk l b :: ms, h => by
      simp only [CaseMsg.SafeList] at h
      rw [ECase.fromProtoList]
      refine fine_bind (fine_lit h.1) (fun x _ hx => ?_)
      refine fine_bind (expr_safe b h.2.1) (fun y _ hy => ?_)
      refine fine_bind (cases_safe ms h.2.2) (fun es _ hes => fine_ok ⟨by simp, fun ht => ?_⟩)
      simp only [CaseMsg.TypedList] at ht
      intro c hc l' e' hce
      rcases List.mem_cons.1 hc with h' | h'
      · rw [h'] at hce
        cases hce
        exact hy ht.1
      · exact hes.2 ht.2 c h' l' e' hce
theorem rows_safe : ∀ (ms : List RowMsg), RowMsg.SafeList reg base.isSome ms →
    Fine (ERow.fromProtoList reg base ms) (fun _ => True)
  | [], _ => by rw [ERow.fromProtoList]; exact fine_ok trivial
  | .mk r :: ms, h => by
      simp only [RowMsg.SafeList] at h
      rw [ERow.fromProtoList]
      refine fine_bind (list_safe r h.1) (fun x _ hx => ?_)
      exact fine_bind (rows_safe ms h.2) (fun es _ _ => fine_ok trivial)
theorem root_safe : ∀ (m : RootMsg), m.Safe reg base.isSome →
    Fine (ERoot.fromProto reg base m) (fun r => r.Known ∧ (m.Typed base.isSome →
      (r = .rootReference ∧ base.isSome = true) ∨ ∃ e, r = .expr e))
  | .unset, _ => by
      rw [ERoot.fromProto]; exact fine_ok ⟨trivial, fun h => by simpa [RootMsg.Typed] using h⟩
  | .rootReference, _ => by
      rw [ERoot.fromProto]; exact fine_ok ⟨trivial, fun h => by simpa [RootMsg.Typed] using h⟩
  | .outer n, _ => by
      rw [ERoot.fromProto]; exact fine_ok ⟨trivial, fun h => absurd h (by simp [RootMsg.Typed])⟩
  | .lambdaParam n, _ => by
      rw [ERoot.fromProto]; exact fine_ok ⟨trivial, fun h => absurd h (by simp [RootMsg.Typed])⟩
  | .expr e, h => by
      simp only [RootMsg.Safe] at h
      rw [ERoot.fromProto]
      exact fine_bind (expr_safe e h.1) (fun x _ hx => fine_ok ⟨hx h.2, fun _ => .inr ⟨x, rfl⟩⟩)
theorem arg_safe : ∀ (m : ArgMsg), m.Safe reg base.isSome →
    Fine (EArg.fromProto reg base m) (fun _ => True)
  | .unset, _ => by rw [EArg.fromProto]; exact fine_err
  | .enum s, _ => by rw [EArg.fromProto]; exact fine_ok trivial
  | .type t, h => by
      simp only [ArgMsg.Safe] at h
      rw [EArg.fromProto]
      exact fine_bind (fine_type h) (fun _ _ _ => fine_ok trivial)
  | .value e, h => by
      simp only [ArgMsg.Safe] at h
      rw [EArg.fromProto]
      exact fine_bind (expr_safe e h) (fun _ _ _ => fine_ok trivial)
theorem args_safe : ∀ (ms : List ArgMsg), ArgMsg.SafeList reg base.isSome ms →
    Fine (EArg.fromProtoList reg base ms) (fun _ => True)
  | [], _ => by rw [EArg.fromProtoList]; exact fine_ok trivial
  | m :: ms, h => by
      simp only [ArgMsg.SafeList] at h
      rw [EArg.fromProtoList]
      refine fine_bind (arg_safe m h.1) (fun x _ hx => ?_)
      exact fine_bind (args_safe ms h.2) (fun es _ _ => fine_ok trivial)
theorem sorts_safe : ∀ (ms : List SortMsg), SortMsg.SafeList reg base.isSome ms →
    Fine (ESort.fromProtoList reg base ms) (fun _ => True)
  | [], _ => by rw [ESort.fromProtoList]; exact fine_ok trivial
  | .mk e k :: ms, h => by
      simp only [SortMsg.SafeList] at h
      rw [ESort.fromProtoList]
      refine fine_bind (expr_safe e h.1) (fun x _ hx => ?_)
      refine fine_bind (P := fun _ => True) (by cases k <;> first | exact fine_err | exact fine_ok trivial)
        (fun _ _ _ => ?_)
      exact fine_bind (sorts_safe ms h.2) (fun es _ _ => fine_ok trivial)
end
end

end Verif

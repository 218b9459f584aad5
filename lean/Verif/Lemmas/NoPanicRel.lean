import Verif.Lemmas.NoPanicExpr
import Verif.Lemmas.LocalTypes
/-!
# Reading relations without a panic
-/

namespace Verif

/-- Types of columns: as many as `n`, all plan types. -/
def Columns (n : Nat) (ts : List Ty) : Prop := ts.length = n ∧ Ty.PlanTypeList ts

theorem columns_append {a b : Nat} {ts us : List Ty} (h : Columns a ts) (g : Columns b us) :
    Columns (a + b) (ts ++ us) := by
  refine ⟨by simp [h.1, g.1], planTypeList_of_mem fun t ht => ?_⟩
  rcases List.mem_append.1 ht with ht | ht
  · exact planTypeList_mem h.2 t ht
  · exact planTypeList_mem g.2 t ht

theorem columns_nullable {a : Nat} {ts : List Ty} (h : Columns a ts) :
    Columns a (ts.map asNullable) := by
  refine ⟨by simp [h.1], planTypeList_of_mem fun t ht => ?_⟩
  obtain ⟨u, hu, rfl⟩ := List.mem_map.1 ht
  exact planType_withNullability u _ (planTypeList_mem h.2 u hu)

theorem columns_nil : Columns 0 [] := ⟨rfl, by simp [Ty.PlanTypeList]⟩

/-- Mapping rows through an output mapping in range. -/
theorem remap_columns {c : Option CommonMsg} {rc : RelCommon} {n : Nat} {ts : List Ty}
    (hm : rc.mapping = commonMapping c) (hr : EmitInRange c n) (h : Columns n ts) :
    ∃ us, rc.remap ts = .ok us ∧ Columns (emitWidth c n) us := by
  unfold RelCommon.remap
  cases hc : rc.mapping with
  | none =>
    refine ⟨ts, rfl, ?_⟩
    unfold emitWidth
    rw [← hm, hc]; exact h
  | some m =>
    have hin : ∀ i ∈ m, 0 ≤ i.toInt ∧ i.toInt < n := hr m (by rw [← hm, hc])
    have key : ∀ (l : List Int32), (∀ i ∈ l, 0 ≤ i.toInt ∧ i.toInt < n) →
        ∃ us, Res.mapL (fun i : Int32 => Res.index ts i.toInt) l = .ok us ∧ Columns l.length us := by
      intro l
      induction l with
      | nil => intro _; exact ⟨[], rfl, columns_nil⟩
      | cons i l ih =>
        intro hl
        obtain ⟨us, h1, h2, h3⟩ := ih (fun j hj => hl j (by simp [hj]))
        have hi := hl i (by simp)
        have hlt : i.toInt.toNat < ts.length := by have := h.1; omega
        refine ⟨ts[i.toInt.toNat] :: us, ?_, by simp [h2], ?_⟩
        · rw [Res.mapL, Res.index_eq_ok.2 ⟨hi.1, List.getElem?_eq_getElem hlt⟩, Res.ok_bind, h1]; rfl
        · simp only [Ty.PlanTypeList]
          exact ⟨planTypeList_mem h.2 _ (List.getElem_mem hlt), h3⟩
    obtain ⟨us, h1, h2⟩ := key m hin
    refine ⟨us, h1, ?_⟩
    unfold emitWidth
    rw [← hm, hc]; exact h2

theorem fine_common {c : Option CommonMsg} (h : c ≠ none) :
    Fine (commonFromProto c) (fun rc => rc.mapping = commonMapping c) := by
  cases c with
  | none => exact absurd rfl h
  | some c =>
    obtain ⟨hint, adv, e⟩ := c
    cases e <;> exact fine_ok rfl

theorem fine_common? (c : Option CommonMsg) :
    Fine (commonFromProto? c) (fun rc => rc.mapping = commonMapping c) := by
  cases c with
  | none => exact fine_ok rfl
  | some c => exact fine_common (c := some c) (by simp)

theorem fine_schema {s : Option NamedStructMsg} (h : ∀ m, s = some m → m.Complete) :
    Fine (namedStructFromProto s) (fun x => Columns (schemaWidth s) x.types) := by
  cases s with
  | none => exact fine_ok columns_nil
  | some m =>
    obtain ⟨names, st⟩ := m
    obtain ⟨n, v, ts, hs, hc⟩ := h _ rfl
    simp only at hs
    subst hs
    obtain ⟨us, h1, h2, h3⟩ := mapL_types_complete ts hc
    unfold namedStructFromProto
    simp only [h1, Res.ok_bind]
    exact fine_ok ⟨h3, h2⟩

theorem fine_opt (reg : Reg) {ts : List Ty} (hb : Ty.PlanTypeList ts) {m : ExprMsg}
    (h : m.Safe reg true) : Fine (Expr.optFromProto reg (some ts) m) (fun _ => True) := by
  unfold Expr.optFromProto
  split
  · exact fine_ok trivial
  · exact fine_imp (expr_safe reg (some ts) (fun us hu => by cases hu; exact hb) m h) (fun _ _ => trivial)

theorem fine_mapL {f : α → Res β} {P : β → Prop} : ∀ (l : List α), (∀ a ∈ l, Fine (f a) P) →
    Fine (Res.mapL f l) (fun bs => bs.length = l.length ∧ ∀ b ∈ bs, P b)
  | [], _ => by rw [Res.mapL]; exact fine_ok ⟨rfl, by simp⟩
  | a :: l, h => by
      rw [Res.mapL]
      refine fine_bind (h a (by simp)) (fun b _ hb => ?_)
      refine fine_bind (fine_mapL l fun x hx => h x (by simp [hx])) (fun bs _ hbs => fine_ok ?_)
      refine ⟨by simp [hbs.1], fun x hx => ?_⟩
      rcases List.mem_cons.1 hx with rfl | hx
      · exact hb
      · exact hbs.2 x hx

theorem fine_readType (reg : Reg) {k : ReadTypeMsg} (h : k.Safe reg) :
    Fine (readTypeFromProto reg k) (fun _ => True) := by
  cases k with
  | unset => exact fine_err
  | extTable d => exact fine_ok trivial
  | files items adv => exact fine_ok trivial
  | named names adv => exact fine_ok trivial
  | iceberg o =>
    cases o with
    | none => exact fine_err
    | some x =>
      obtain ⟨u, s⟩ := x
      cases s <;> exact fine_ok trivial
  | virt values exprs =>
    simp only [ReadTypeMsg.Safe] at h
    unfold readTypeFromProto
    simp only
    split
    · exact fine_err
    · refine fine_bind (fine_mapL (P := fun _ => True) values fun row hrow => ?_) (fun vs _ _ => ?_)
      · refine fine_bind (fine_mapL row fun l hl => fine_lit (h.1 row hrow l hl)) (fun ls _ _ => ?_)
        exact fine_ok trivial
      · refine fine_bind (fine_mapL (P := fun _ => True) exprs fun row hrow => ?_)
          (fun es _ _ => fine_ok trivial)
        exact fine_imp (list_safe reg none (by simp) row (h.2 row hrow)) (fun _ _ => trivial)

theorem fine_resolveAgg {reg : Reg} {ref : UInt32} (h : Nameable reg reg.aggregate ref) :
    Fine (resolveAgg reg ref) (fun _ => True) := by
  unfold resolveAgg
  split
  · exact fine_err
  · rename_i id hid
    split
    · rename_i hl
      obtain ⟨a, ha⟩ := h id hid hl
      rw [ha]
      exact fine_ok trivial
    · exact fine_ok trivial

/-- A measure with a function whose output type is a plan type. -/
def Measure.HasType (m : Measure) : Prop := ∃ f, m.measure = some f ∧ f.a.outputType.PlanType

theorem fine_measure (reg : Reg) {ts : List Ty} (hb : Ty.PlanTypeList ts) {m : MeasureMsg}
    (h : m.Safe reg) : Fine (measureFromProto reg (some ts) m) Measure.HasType := by
  have hb' : ∀ us, some ts = some us → Ty.PlanTypeList us := fun us hu => by cases hu; exact hb
  obtain ⟨⟨f, hf, hn, ho, ha, hs⟩, hflt⟩ := h
  unfold measureFromProto
  rw [hf]
  refine fine_bind (P := fun f : AggFn => f.a.outputType.PlanType) ?_ (fun x _ hx => ?_)
  · unfold aggFromProto
    simp only
    split
    · exact fine_err
    · rename_i out hout
      refine fine_bind (args_safe reg (some ts) hb' f.args ha) (fun _ _ _ => ?_)
      refine fine_bind (sorts_safe reg (some ts) hb' f.sorts hs) (fun _ _ _ => ?_)
      refine fine_bind (fine_resolveAgg hn) (fun _ _ _ => ?_)
      exact fine_bind (fine_type (ho out hout)) (fun t _ ht => fine_ok ht)
  · exact fine_bind (fine_opt reg hb hflt) (fun e _ _ => fine_ok ⟨x, rfl, hx⟩)

theorem fine_fieldRef (reg : Reg) {ts : List Ty} (hb : Ty.PlanTypeList ts) {k : FieldRefMsg}
    (h : KeySafe reg k) : Fine (fieldRefFromProto reg (some ts) k) (fun _ => True) := by
  obtain ⟨root, ref, rfl, h⟩ := h
  exact fine_imp (expr_safe reg (some ts) (fun us hu => by cases hu; exact hb) _ h) (fun _ _ => trivial)

theorem fine_keys (reg : Reg) {ls rs : List Ty} (hl : Ty.PlanTypeList ls) (hr : Ty.PlanTypeList rs)
    {ks : List JoinKeyMsg} {lks rks : List FieldRefMsg} (h : KeysSafe reg ks lks rks) :
    Fine (joinKeysFromProto reg ls rs ks lks rks) (fun _ => True) := by
  unfold joinKeysFromProto
  split
  · refine fine_imp (fine_mapL (P := fun _ => True) ks fun k hk => ?_) (fun _ _ => trivial)
    obtain ⟨h1, h2⟩ := h.1 k hk
    unfold joinKeyFromProto
    refine fine_bind (fine_fieldRef reg hl h1) (fun _ _ _ => ?_)
    refine fine_bind (fine_fieldRef reg hr h2) (fun _ _ _ => ?_)
    refine fine_bind (P := fun _ => True) ?_ (fun _ _ _ => fine_ok trivial)
    cases k.comparison <;> first | exact fine_err | exact fine_ok trivial
  · rename_i hk
    have hk : ks = [] := List.length_eq_zero_iff.1 (by omega)
    obtain ⟨h1, h2⟩ := h.2 hk
    split
    · exact fine_err
    · refine fine_imp (fine_mapL (P := fun _ => True) _ fun p hp => ?_) (fun _ _ => trivial)
      obtain ⟨a, b⟩ := p
      obtain ⟨ha, hb⟩ := List.of_mem_zip hp
      refine fine_bind (fine_fieldRef reg hl (h1 a ha)) (fun _ _ _ => ?_)
      exact fine_bind (fine_fieldRef reg hr (h2 b hb)) (fun _ _ _ => fine_ok trivial)

/-! ## Legacy groupings -/

/-- A chain of steps without map keys. -/
def Seg.NoKeys : Seg → Prop
  | .mapKey _ _ => False
  | .structField _ c => c.NoKeys
  | .listElement _ c => c.NoKeys
  | .nil => True

/-- A reference into the row without map keys, of known type. -/
def Expr.PlainCol (e : Expr) : Prop :=
  ∃ s k, e = .fieldRef .rootReference (.seg s) k ∧ s.NoKeys ∧ s.isNil = false ∧ e.HasType

theorem segFromProto_noKeys : ∀ (m : PSeg) (s : Seg), m.NoKeys → segFromProto m = .ok s → s.NoKeys
  | .nil, s, _, h => by rw [segFromProto] at h; cases h; simp [Seg.NoKeys]
  | .unset, s, _, h => by rw [segFromProto] at h; cases h; simp [Seg.NoKeys]
  | .mapKey _ _, s, hm, _ => by simp [PSeg.NoKeys] at hm
  | .structField f c, s, hm, h => by
      rw [segFromProto] at h
      obtain ⟨c', hc, h⟩ := Res.bind_eq_ok.1 h
      cases h
      simp only [PSeg.NoKeys] at hm
      simpa [Seg.NoKeys] using segFromProto_noKeys c c' hm hc
  | .listElement f c, s, hm, h => by
      rw [segFromProto] at h
      obtain ⟨c', hc, h⟩ := Res.bind_eq_ok.1 h
      cases h
      simp only [PSeg.NoKeys] at hm
      simpa [Seg.NoKeys] using segFromProto_noKeys c c' hm hc

theorem noKeys_complete : ∀ (m : PSeg), m.NoKeys → m.KeysComplete
  | .nil, _ => by simp [PSeg.KeysComplete]
  | .unset, _ => by simp [PSeg.KeysComplete]
  | .mapKey _ _, h => by simp [PSeg.NoKeys] at h
  | .structField _ c, h => by
      simp only [PSeg.NoKeys] at h
      simpa [PSeg.KeysComplete] using noKeys_complete c h
  | .listElement _ c, h => by
      simp only [PSeg.NoKeys] at h
      simpa [PSeg.KeysComplete] using noKeys_complete c h

theorem fine_plain (reg : Reg) {ts : List Ty} (hb : Ty.PlanTypeList ts) {m : ExprMsg}
    (h : m.PlainRef) : Fine (Expr.fromProto reg (some ts) m) Expr.PlainCol := by
  have hb' : ∀ us, some ts = some us → Ty.PlanTypeList us := fun us hu => by cases hu; exact hb
  cases m with
  | selection root ref =>
    cases ref with
    | direct s =>
      obtain ⟨hr, h1, h2, h3⟩ := h
      have hroot : ERoot.fromProto reg (some ts) root = .ok .rootReference := by
        rcases hr with rfl | rfl <;> rw [ERoot.fromProto]
      obtain ⟨s', hs, hk, hn⟩ := seg_complete s (noKeys_complete s h3)
      have hn := hn h1 h2
      rw [Expr.fromProto, hroot, Res.ok_bind]
      simp only [refFromProto, hs, Res.ok_bind, hn, Bool.false_eq_true, if_false]
      obtain ⟨g1, g2⟩ := seg_getType_ok s' (.struct NullabilityRequired 0 ts) hn hk
        (by simpa [Ty.PlanType] using hb)
      refine fine_bind (P := fun r => ∃ t, r = (ERef.seg s', some t) ∧ t.PlanType) ?_ (fun r _ hr => ?_)
      · exact fine_bind (P := Ty.PlanType) ⟨g1, g2⟩ (fun t _ ht => fine_ok ⟨t, rfl, ht⟩)
      · obtain ⟨t, rfl, ht⟩ := hr
        exact fine_ok ⟨s', some t, rfl, segFromProto_noKeys s s' h3 hs, hn, t, by rw [Expr.getType], ht⟩
    | unset => exact absurd h (by simp [ExprMsg.PlainRef])
    | masked k => exact absurd h (by simp [ExprMsg.PlainRef])
  | _ => exact absurd h (by simp [ExprMsg.PlainRef])

theorem seg_equals_total (same : Seg → Seg → Bool) : ∀ (a b : Seg), a.isNil = false → a.NoKeys →
    ∃ r, Seg.equals same a b = .ok r
  | .nil, _, h, _ => by simp [Seg.isNil] at h
  | .mapKey _ _, _, _, h => by simp [Seg.NoKeys] at h
  | .structField f c, b, _, h => by
      simp only [Seg.NoKeys] at h
      cases b with
      | structField f' c' =>
        rw [Seg.equals]
        split
        · exact ⟨_, rfl⟩
        · split
          · exact ⟨_, rfl⟩
          · split
            · exact ⟨_, rfl⟩
            · rename_i h1
              simp only [Bool.or_eq_true, not_or, Bool.not_eq_true] at h1
              exact seg_equals_total same c c' h1.1 h
      | _ => exact ⟨false, by simp [Seg.equals]⟩
  | .listElement f c, b, _, h => by
      simp only [Seg.NoKeys] at h
      cases b with
      | listElement f' c' =>
        rw [Seg.equals]
        split
        · exact ⟨_, rfl⟩
        · split
          · exact ⟨_, rfl⟩
          · split
            · exact ⟨_, rfl⟩
            · rename_i h1
              simp only [Bool.or_eq_true, not_or, Bool.not_eq_true] at h1
              exact seg_equals_total same c c' h1.1 h
      | _ => exact ⟨false, by simp [Seg.equals]⟩

theorem plain_equals_total (sh : Sharing) {a b : Expr} (ha : a.PlainCol) (hb : b.PlainCol) :
    ∃ r, Expr.equals sh a b = .ok r := by
  obtain ⟨s, k, rfl, h1, h2, -⟩ := ha
  obtain ⟨s', k', rfl, -, -, -⟩ := hb
  rw [Expr.equals, ERoot.equals, Res.ok_bind, if_pos rfl, ERef.equals]
  exact seg_equals_total sh.seg s s' h2 h1

theorem findExpr_plain (sh : Sharing) {e : Expr} (he : e.PlainCol) : ∀ (xs : List Expr) (k : Nat),
    (∀ x ∈ xs, x.PlainCol) → ∃ f, findExpr sh e k xs = .ok f
  | [], _, _ => ⟨none, rfl⟩
  | x :: xs, k, h => by
      obtain ⟨r, hr⟩ := plain_equals_total sh (h x (by simp)) he
      rw [findExpr, hr, Res.ok_bind]
      cases r with
      | true => exact ⟨_, rfl⟩
      | false => exact findExpr_plain sh he xs (k + 1) (fun y hy => h y (by simp [hy]))

theorem groupRefs_plain (sh : Sharing) : ∀ (g es : List Expr), (∀ e ∈ es, e.PlainCol) →
    (∀ e ∈ g, e.PlainCol) →
    ∃ es' refs, groupRefs sh es g = .ok (es', refs) ∧ ∀ e ∈ es', e.PlainCol
  | [], es, hes, _ => ⟨es, [], rfl, hes⟩
  | e :: g, es, hes, hg => by
      obtain ⟨f, hf⟩ := findExpr_plain sh (hg e (by simp)) es 0 hes
      rw [groupRefs, hf, Res.ok_bind]
      cases f with
      | some i =>
        obtain ⟨es', refs, h1, h2⟩ := groupRefs_plain sh g es hes (fun y hy => hg y (by simp [hy]))
        exact ⟨es', i :: refs, by simp only [h1, Res.ok_bind], h2⟩
      | none =>
        obtain ⟨es', refs, h1, h2⟩ := groupRefs_plain sh g (es ++ [e]) (by
          intro y hy
          rcases List.mem_append.1 hy with hy | hy
          · exact hes y hy
          · rw [List.mem_singleton.1 hy]; exact hg e (by simp)) (fun y hy => hg y (by simp [hy]))
        exact ⟨es', UInt32.ofNat es.length :: refs, by simp only [h1, Res.ok_bind], h2⟩

theorem groupingLoop_plain (sh : Sharing) : ∀ (gs : List (List Expr)) (es : List Expr),
    (∀ e ∈ es, e.PlainCol) → (∀ g ∈ gs, ∀ e ∈ g, e.PlainCol) →
    ∃ es' refs, groupingLoop sh es gs = .ok (es', refs) ∧ ∀ e ∈ es', e.PlainCol
  | [], es, hes, _ => ⟨es, [], rfl, hes⟩
  | g :: gs, es, hes, hg => by
      obtain ⟨es1, r1, h1, h2⟩ := groupRefs_plain sh g es hes (hg g (by simp))
      obtain ⟨es2, r2, h3, h4⟩ := groupingLoop_plain sh gs es1 h2 (fun x hx => hg x (by simp [hx]))
      exact ⟨es2, r1 :: r2, by simp only [groupingLoop, h1, h3, Res.ok_bind], h4⟩

theorem groupRefs_length (sh : Sharing) : ∀ (g a a' : List Expr) (r : List UInt32),
    groupRefs sh a g = .ok (a', r) → a'.length ≤ a.length + g.length
  | [], a, a', r, h => by cases h; simp
  | e :: g, a, a', r, h => by
      simp only [groupRefs] at h
      obtain ⟨f, hf, h⟩ := Res.bind_eq_ok.1 h
      cases f with
      | some i =>
        obtain ⟨⟨x, y⟩, h3, h⟩ := Res.bind_eq_ok.1 h
        cases h
        have := groupRefs_length sh g a _ y h3
        simp only [List.length_cons]; omega
      | none =>
        obtain ⟨⟨x, y⟩, h3, h⟩ := Res.bind_eq_ok.1 h
        cases h
        have := groupRefs_length sh g _ _ y h3
        simp only [List.length_append, List.length_cons, List.length_nil] at this ⊢; omega

theorem groupingLoop_length (sh : Sharing) : ∀ (gs : List (List Expr)) (a a' : List Expr)
    (r : List (List UInt32)), groupingLoop sh a gs = .ok (a', r) →
    a'.length ≤ a.length + (gs.map List.length).sum
  | [], a, a', r, h => by cases h; simp
  | g :: gs, a, a', r, h => by
      simp only [groupingLoop] at h
      obtain ⟨⟨a1, r1⟩, h1, h⟩ := Res.bind_eq_ok.1 h
      obtain ⟨⟨a2, r2⟩, h2, h⟩ := Res.bind_eq_ok.1 h
      cases h
      have hA := groupingLoop_length sh gs a1 _ r2 h2
      have hB := groupRefs_length sh g a a1 r1 h1
      simp only [List.map_cons, List.sum_cons]; omega

theorem forall₂_lengths {R : α → β → Prop} {xs : List (List α)} {ys : List (List β)}
    (h : List.Forall₂ (List.Forall₂ R) xs ys) :
    (ys.map List.length).sum = (xs.map List.length).sum := by
  induction h with
  | nil => rfl
  | cons h _ ih => simp [h.length_eq, ih]

/-- References and expressions of an aggregate that give `n` grouping columns. -/
def GroupingOk (n : Nat) (g : List Expr × List (List UInt32)) : Prop :=
  (g.2.map List.length).sum = n ∧ (∀ l ∈ g.2, ∀ k ∈ l, k.toNat < g.1.length) ∧
    ∀ e ∈ g.1, e.HasType

theorem fine_groupings (reg : RelReg) {ts : List Ty} (hb : Ty.PlanTypeList ts) {es : List ExprMsg}
    {gs : List GroupingMsg} (h : GroupingsSafe reg.toReg es gs) :
    Fine (groupingsFromProto reg (some ts) es gs) (fun g =>
      ExprMsg.TypedList reg.toReg true es →
      (es ≠ [] → ∀ g ∈ gs, ∀ k ∈ g.refs, k.toNat < es.length) → GroupingOk (groupingWidth es gs) g) := by
  have hb' : ∀ us, some ts = some us → Ty.PlanTypeList us := fun us hu => by cases hu; exact hb
  unfold groupingsFromProto groupingWidth
  by_cases hl : es.length > 0
  · rw [if_pos hl, if_pos hl]
    refine fine_bind (list_safe reg.toReg (some ts) hb' es h.1) (fun xs _ hxs => fine_ok fun ht hr => ?_)
    refine ⟨by simp [Function.comp_def], ?_, hxs.2 ht⟩
    intro l hl' k hk
    obtain ⟨g, hg, rfl⟩ := List.mem_map.1 hl'
    rw [hxs.1]
    exact hr (by intro h; simp [h] at hl) g hg k hk
  · rw [if_neg hl, if_neg hl]
    have he : es = [] := List.length_eq_zero_iff.1 (by omega)
    obtain ⟨h1, h2⟩ := h.2 he
    have hread : Fine (Res.mapL (fun g : GroupingMsg =>
        Expr.fromProtoList reg.toReg (some ts) g.legacy) gs) (fun groups =>
        (groups.map List.length).sum = (gs.map fun g => g.legacy.length).sum ∧
        ∀ g ∈ groups, ∀ e ∈ g, e.PlainCol) := by
      clear h2 h he hl
      induction gs with
      | nil => rw [Res.mapL]; exact fine_ok ⟨rfl, by simp⟩
      | cons g gs ih =>
        rw [Res.mapL]
        refine fine_bind (P := fun es : List Expr => es.length = g.legacy.length ∧ ∀ e ∈ es, e.PlainCol)
          ?_ (fun es _ hes => ?_)
        · have := h1 g (by simp)
          generalize g.legacy = ms at this ⊢
          induction ms with
          | nil => rw [Expr.fromProtoList]; exact fine_ok ⟨rfl, by simp⟩
          | cons m ms ih' =>
            rw [Expr.fromProtoList]
            refine fine_bind (fine_plain reg.toReg hb (this m (by simp))) (fun e _ he => ?_)
            refine fine_bind (ih' fun x hx => this x (by simp [hx])) (fun es _ hes => fine_ok ?_)
            refine ⟨by simp [hes.1], fun x hx => ?_⟩
            rcases List.mem_cons.1 hx with rfl | hx
            · exact he
            · exact hes.2 x hx
        · refine fine_bind (ih fun x hx => h1 x (by simp [hx])) (fun gs' _ hgs => fine_ok ?_)
          refine ⟨by simp [hes.1, hgs.1], fun x hx => ?_⟩
          rcases List.mem_cons.1 hx with rfl | hx
          · exact hes.2
          · exact hgs.2 x hx
    refine fine_bind hread (fun groups _ hg => ?_)
    obtain ⟨es', refs, k1, k2⟩ := groupingLoop_plain reg.sh groups [] (by simp) hg.2
    unfold groupingExprs
    rw [k1]
    refine fine_ok fun _ _ => ?_
    have hlen : es'.length ≤ 2 ^ 32 := by
      have := groupingLoop_length reg.sh groups [] es' refs k1
      simp only [List.length_nil, Nat.zero_add] at this
      rw [hg.1] at this
      omega
    obtain ⟨new, -, -, -, hf⟩ := groupingLoop_spec k1 hlen List.Pairwise.nil
    refine ⟨?_, ?_, fun e he => ?_⟩
    · rw [← hg.1]
      exact forall₂_lengths hf
    · intro l hl' k hk
      obtain ⟨g, -, hgl⟩ := forall₂_mem_right hf hl'
      obtain ⟨e, -, x, hx, -⟩ := forall₂_mem_right hgl hk
      exact (List.getElem?_eq_some_iff.1 hx).1
    · obtain ⟨s, k, -, -, -, ht⟩ := k2 e he
      exact ht

theorem aggregate_columns {ms : List Measure} {n : Nat} {g : List Expr × List (List UInt32)}
    (hm : ∀ m ∈ ms, m.HasType) (hg : GroupingOk n g) :
    ∃ cols, aggregateColumns ms g.1 g.2 = .ok cols ∧ Columns (n + ms.length) cols := by
  obtain ⟨h1, h2, h3⟩ := hg
  have hgs : ∀ (refs : List (List UInt32)), (∀ l ∈ refs, ∀ k ∈ l, k.toNat < g.1.length) →
      ∃ gs, Res.mapL (fun g' : List UInt32 =>
        Res.mapL (fun e : UInt32 => Res.index g.1 e.toNat >>= Expr.getType) g') refs = .ok gs ∧
        Columns (refs.map List.length).sum gs.flatten := by
    intro refs
    induction refs with
    | nil => intro _; exact ⟨[], rfl, columns_nil⟩
    | cons r refs ih =>
      intro hr
      obtain ⟨gs, hgs, hc⟩ := ih (fun l hl => hr l (by simp [hl]))
      have : ∃ ts, Res.mapL (fun e : UInt32 => Res.index g.1 e.toNat >>= Expr.getType) r = .ok ts ∧
          Columns r.length ts := by
        have hr := hr r (by simp)
        clear ih hgs hc h1
        rename_i hr0
        clear hr0
        induction r with
        | nil => exact ⟨[], rfl, columns_nil⟩
        | cons k r ih =>
          obtain ⟨ts, ht, hc⟩ := ih (fun x hx => hr x (by simp [hx]))
          have hlt := hr k (by simp)
          obtain ⟨t, ht', hp⟩ := h3 _ (List.getElem_mem hlt)
          refine ⟨t :: ts, ?_, ?_⟩
          · rw [Res.mapL, Res.index_nat _ _ hlt, Res.ok_bind, ht', Res.ok_bind, ht]; rfl
          · exact ⟨by simp [hc.1], by simp [Ty.PlanTypeList, hp, hc.2]⟩
      obtain ⟨ts, ht, hc'⟩ := this
      refine ⟨ts :: gs, by rw [Res.mapL, ht, Res.ok_bind, hgs]; rfl, ?_⟩
      simp only [List.flatten_cons, List.map_cons, List.sum_cons]
      exact columns_append hc' hc
  obtain ⟨gs, hgs, hc⟩ := hgs g.2 h2
  have hms : ∃ ts, Res.mapL Measure.getType ms = .ok ts ∧ Columns ms.length ts := by
    clear hgs hc
    induction ms with
    | nil => exact ⟨[], rfl, columns_nil⟩
    | cons m ms ih =>
      obtain ⟨ts, ht, hc⟩ := ih (fun x hx => hm x (by simp [hx]))
      obtain ⟨f, hf, hp⟩ := hm m (by simp)
      have hmt : m.getType = .ok f.a.outputType := by unfold Measure.getType; rw [hf]
      exact ⟨_, by rw [Res.mapL, hmt, Res.ok_bind, ht]; rfl,
        by simp [hc.1], by simp [Ty.PlanTypeList, hp, hc.2]⟩
  obtain ⟨ts, ht, hc'⟩ := hms
  refine ⟨gs.flatten ++ ts, by unfold aggregateColumns; rw [hgs, Res.ok_bind, ht]; rfl, ?_⟩
  rw [← h1]
  exact columns_append hc hc'

theorem getTypes_mapL {es : List Expr} (h : ∀ e ∈ es, e.HasType) :
    ∃ ts, Res.mapL Expr.getType es = .ok ts ∧ Columns es.length ts := by
  induction es with
  | nil => exact ⟨[], rfl, columns_nil⟩
  | cons e es ih =>
    obtain ⟨ts, ht, hc⟩ := ih (fun x hx => h x (by simp [hx]))
    obtain ⟨t, h1, hp⟩ := h e (by simp)
    exact ⟨t :: ts, by rw [Res.mapL, h1, Res.ok_bind, ht]; rfl, by simp [hc.1],
      by simp [Ty.PlanTypeList, hp, hc.2]⟩

/-! ## Relations -/

/-- The relation has a row type of `n` columns. -/
def Rel.HasColumns (n : Nat) (r : Rel) : Prop := ∃ ts, r.recordType = .ok ts ∧ Columns n ts

theorem hasColumns_of {r : Rel} {c : Option CommonMsg} {n : Nat} {ts : List Ty}
    (hc : r.common.mapping = commonMapping c) (hd : r.directOutputSchema = .ok ts) (ht : Columns n ts)
    (hr : EmitInRange c n) : r.HasColumns (emitWidth c n) := by
  obtain ⟨us, h1, h2⟩ := remap_columns hc hr ht
  exact ⟨us, by unfold Rel.recordType; rw [hd]; exact h1, h2⟩

theorem fine_recordType {r : Rel} {n : Nat} (h : r.HasColumns n) : Fine r.recordType (Columns n) := by
  obtain ⟨ts, h1, h2⟩ := h
  rw [h1]; exact fine_ok h2

theorem recordTypeEquals_fine {a b : List Ty} (ha : Ty.PlanTypeList a) :
    Fine (recordTypeEquals a b) (fun _ => True) := by
  obtain ⟨r, hr, -⟩ := equals_spec (.struct NullabilityRequired 0 a) (.struct NullabilityRequired 0 b)
    (by simpa [Ty.PlanType] using ha)
  unfold recordTypeEquals
  rw [hr]; exact fine_ok trivial

theorem setInputs_fine (primary : List Ty) : ∀ (is : List Rel), (∀ i ∈ is, ∃ n, i.HasColumns n) →
    Fine (setInputsSame primary is) (fun _ => True)
  | [], _ => fine_ok trivial
  | i :: is, h => by
      obtain ⟨n, hn⟩ := h i (by simp)
      rw [setInputsSame]
      refine fine_bind (fine_recordType hn) (fun ts _ hts => ?_)
      refine fine_bind (recordTypeEquals_fine hts.2) (fun b _ _ => ?_)
      cases b
      · exact fine_err
      · exact setInputs_fine primary is (fun x hx => h x (by simp [hx]))

theorem fine_ext (reg : RelReg) (hd : reg.NoDecoders) (d : Option Nat) :
    Fine (decodeExtensionDef reg d) (fun x => x = .undecoded d) := by
  unfold decodeExtensionDef
  rw [hd d]
  exact fine_ok rfl

section
variable (reg : RelReg) (hd : reg.NoDecoders)
include hd

mutual
theorem rel_safe : ∀ (m : RelMsg), m.Safe reg.toReg →
    Fine (Rel.fromProto reg m) (fun r => m.HasSchema reg.toReg → r.HasColumns m.width)
  | .nil, h => absurd h (by simp [RelMsg.Safe])
  | .unset, _ => by rw [Rel.fromProto]; exact fine_err
  | .other, _ => by rw [Rel.fromProto]; exact fine_err
  | .read c s flt best proj adv k, h => by
      simp only [RelMsg.Safe] at h
      rw [Rel.fromProto]
      refine fine_bind (fine_readType reg.toReg h.1) (fun k _ _ => ?_)
      refine fine_bind (fine_common? c) (fun rc _ hrc => ?_)
      refine fine_bind (fine_schema h.2.1) (fun ns _ hns => ?_)
      refine fine_bind (fine_opt reg.toReg hns.2 h.2.2.1) (fun _ _ _ => ?_)
      refine fine_bind (fine_opt reg.toReg hns.2 h.2.2.2) (fun _ _ _ => fine_ok fun hs => ?_)
      simp only [RelMsg.HasSchema] at hs
      rw [RelMsg.width]
      exact hasColumns_of hrc (by rw [Rel.directOutputSchema]) hns hs
  | .filter c i e adv, h => by
      simp only [RelMsg.Safe] at h
      rw [Rel.fromProto]
      refine fine_bind (rel_safe i h.1) (fun r _ hr => ?_)
      have hr := hr h.2.1
      refine fine_bind (fine_recordType hr) (fun ts _ hts => ?_)
      refine fine_bind (expr_safe reg.toReg (some ts) (fun us hu => by cases hu; exact hts.2) e h.2.2)
        (fun _ _ _ => ?_)
      refine fine_bind (fine_common? c) (fun rc _ hrc => fine_ok fun hs => ?_)
      simp only [RelMsg.HasSchema] at hs
      rw [RelMsg.width]
      obtain ⟨us, h1, h2⟩ := hr
      exact hasColumns_of hrc (by rw [Rel.directOutputSchema]; exact h1) h2 hs.2
  | .fetch c i o n adv, h => by
      simp only [RelMsg.Safe] at h
      rw [Rel.fromProto]
      refine fine_bind (rel_safe i h) (fun r _ hr => ?_)
      cases o with
      | none => exact fine_err
      | some o =>
        cases n with
        | none => exact fine_err
        | some n =>
          refine fine_bind (fine_common? c) (fun rc _ hrc => fine_ok fun hs => ?_)
          simp only [RelMsg.HasSchema] at hs
          rw [RelMsg.width]
          obtain ⟨us, h1, h2⟩ := hr hs.1
          exact hasColumns_of hrc (by rw [Rel.directOutputSchema]; exact h1) h2 hs.2
  | .aggregate c i es gs ms adv, h => by
      simp only [RelMsg.Safe] at h
      rw [Rel.fromProto]
      refine fine_bind (rel_safe i h.2.1) (fun r _ hr => ?_)
      have hr := hr h.2.2.1
      refine fine_bind (fine_recordType hr) (fun ts _ hts => ?_)
      refine fine_bind (fine_groupings reg hts.2 h.2.2.2.1) (fun g _ hg => ?_)
      refine fine_bind (fine_mapL ms fun m hm => fine_measure reg.toReg hts.2 (h.2.2.2.2 m hm))
        (fun ms' _ hms => ?_)
      refine fine_bind (fine_common h.1) (fun rc _ hrc => fine_ok fun hs => ?_)
      simp only [RelMsg.HasSchema] at hs
      rw [RelMsg.width]
      obtain ⟨cols, h1, h2⟩ := aggregate_columns hms.2 (hg hs.1 hs.2.1)
      rw [hms.1] at h2
      exact hasColumns_of hrc (by rw [Rel.directOutputSchema]; exact h1) h2 hs.2.2
  | .sort c i ss adv, h => by
      simp only [RelMsg.Safe] at h
      rw [Rel.fromProto]
      refine fine_bind (rel_safe i h.2.1) (fun r _ hr => ?_)
      have hr := hr h.2.2.1
      refine fine_bind (fine_recordType hr) (fun ts _ hts => ?_)
      refine fine_bind (sorts_safe reg.toReg (some ts) (fun us hu => by cases hu; exact hts.2) ss h.2.2.2)
        (fun _ _ _ => ?_)
      split
      · exact fine_err
      · refine fine_bind (fine_common h.1) (fun rc _ hrc => fine_ok fun hs => ?_)
        simp only [RelMsg.HasSchema] at hs
        rw [RelMsg.width]
        obtain ⟨us, h1, h2⟩ := hr
        exact hasColumns_of hrc (by rw [Rel.directOutputSchema]; exact h1) h2 hs.2
  | .join c l r e p t adv, h => by
      simp only [RelMsg.Safe] at h
      obtain ⟨hc, hl, hls, hr, hrs, he, hp⟩ := h
      rw [Rel.fromProto]
      split
      · exact fine_err
      · refine fine_bind (rel_safe l hl) (fun l' _ hl' => ?_)
        refine fine_bind (rel_safe r hr) (fun r' _ hr' => ?_)
        have hl' := hl' hls
        have hr' := hr' hrs
        refine fine_bind (fine_common hc) (fun rc _ hrc => ?_)
        refine fine_bind (fine_recordType hl') (fun ls hls' hlc => ?_)
        refine fine_bind (fine_recordType hr') (fun rs hrs' hrc' => ?_)
        have happ := columns_append hlc hrc'
        refine fine_bind (expr_safe reg.toReg (some (ls ++ rs))
          (fun us hu => by cases hu; exact happ.2) e he) (fun e' _ _ => ?_)
        refine fine_bind (fine_opt reg.toReg happ.2 hp) (fun p' _ _ => fine_ok fun hs => ?_)
        unfold RelMsg.HasSchema at hs
        unfold Rel.recordType at hls' hrs'
        have hs := hs.2.2
        have hj : ∀ ty n ts, (Rel.join rc l' r' e' p' ty adv).directOutputSchema = .ok ts →
            Columns n ts → EmitInRange c n →
            (Rel.join rc l' r' e' p' ty adv).HasColumns (emitWidth c n) :=
          fun ty n ts h1 h2 h3 => hasColumns_of hrc h1 h2 h3
        cases t <;> simp only [RelMsg.width]
        case inner =>
          exact hj _ _ _ (by rw [Rel.directOutputSchema, hls', Res.ok_bind, hrs']; rfl) happ hs
        case outer =>
          exact hj _ _ _ (by rw [Rel.directOutputSchema, hls', Res.ok_bind, hrs']; rfl)
            (columns_nullable happ) hs
        case left =>
          exact hj _ _ _ (by rw [Rel.directOutputSchema, hls', Res.ok_bind, hrs']; rfl)
            (columns_append hlc (columns_nullable hrc')) hs
        case leftSingle =>
          exact hj _ _ _ (by rw [Rel.directOutputSchema, hls', Res.ok_bind, hrs']; rfl)
            (columns_append hlc (columns_nullable hrc')) hs
        case right =>
          exact hj _ _ _ (by rw [Rel.directOutputSchema, hls', Res.ok_bind, hrs']; rfl)
            (columns_append (columns_nullable hlc) hrc') hs
        case rightSingle =>
          exact hj _ _ _ (by rw [Rel.directOutputSchema, hls', Res.ok_bind, hrs']; rfl)
            (columns_append (columns_nullable hlc) hrc') hs
        case leftSemi =>
          exact hj _ _ _ (by rw [Rel.directOutputSchema]; exact hls') hlc hs
        case leftAnti =>
          exact hj _ _ _ (by rw [Rel.directOutputSchema]; exact hls') hlc hs
        case rightSemi =>
          exact hj _ _ _ (by rw [Rel.directOutputSchema]; exact hrs') hrc' hs
        case rightAnti =>
          exact hj _ _ _ (by rw [Rel.directOutputSchema]; exact hrs') hrc' hs
        case unspecified => contradiction
        case other x => exact hj _ _ _ (by rw [Rel.directOutputSchema]) columns_nil hs
  | .project c i es adv, h => by
      simp only [RelMsg.Safe] at h
      rw [Rel.fromProto]
      refine fine_bind (rel_safe i h.1) (fun r _ hr => ?_)
      have hr := hr h.2.1
      refine fine_bind (fine_recordType hr) (fun ts hts' hts => ?_)
      refine fine_bind (list_safe reg.toReg (some ts) (fun us hu => by cases hu; exact hts.2) es h.2.2)
        (fun xs _ hxs => ?_)
      split
      · exact fine_err
      · refine fine_bind (fine_common? c) (fun rc _ hrc => fine_ok fun hs => ?_)
        simp only [RelMsg.HasSchema] at hs
        rw [RelMsg.width]
        obtain ⟨us, h1, h2⟩ := getTypes_mapL (hxs.2 hs.2.1)
        rw [hxs.1] at h2
        unfold Rel.recordType at hts'
        exact hasColumns_of hrc (by rw [Rel.directOutputSchema, hts', Res.ok_bind, h1]; rfl)
          (columns_append hts h2) hs.2.2
  | .set c is op adv, h => by
      simp only [RelMsg.Safe] at h
      rw [Rel.fromProto]
      split
      · exact fine_err
      · rename_i hlen
        refine fine_bind (rels_safe is h.2.1) (fun rs _ hrs => ?_)
        have hrs := hrs h.2.2
        split
        · exact fine_err
        · cases is with
          | nil => simp at hlen
          | cons m ms =>
            cases hrs with
            | cons hr hrest =>
              rename_i r rest _
              simp only
              refine fine_bind (fine_recordType hr) (fun ts hts' hts => ?_)
              refine fine_bind (setInputs_fine ts rest fun x hx => ?_) (fun _ _ _ => ?_)
              · obtain ⟨y, -, hy⟩ := forall₂_mem_right hrest hx
                exact ⟨_, hy⟩
              · refine fine_bind (fine_common h.1) (fun rc _ hrc => fine_ok fun hs => ?_)
                simp only [RelMsg.HasSchema] at hs
                rw [RelMsg.width]
                exact hasColumns_of hrc (by rw [Rel.directOutputSchema]; exact hts') hts hs.2
  | .extSingle c i d, h => by
      simp only [RelMsg.Safe] at h
      rw [Rel.fromProto]
      refine fine_bind (rel_safe i h.2) (fun r _ hr => ?_)
      refine fine_bind (fine_ext reg hd d) (fun x _ hx => ?_)
      subst hx
      refine fine_bind (fine_common h.1) (fun rc _ hrc => fine_ok fun hs => ?_)
      simp only [RelMsg.HasSchema] at hs
      rw [RelMsg.width]
      obtain ⟨us, h1, h2⟩ := hr hs.1
      unfold Rel.recordType at h1
      exact hasColumns_of hrc (by rw [Rel.directOutputSchema, h1]; rfl) h2 hs.2
  | .extMulti c is d, h => by
      simp only [RelMsg.Safe] at h
      rw [Rel.fromProto]
      refine fine_bind (rels_safe is h.2) (fun rs _ hrs => ?_)
      refine fine_bind (fine_ext reg hd d) (fun x _ hx => ?_)
      subst hx
      refine fine_bind (fine_common h.1) (fun rc _ hrc => fine_ok fun hs => ?_)
      simp only [RelMsg.HasSchema] at hs
      have hrs := hrs hs.1
      have hs := hs.2
      cases hrs with
      | nil =>
        simp only [RelMsg.width]
        exact hasColumns_of hrc (by rw [Rel.directOutputSchema]; simp) columns_nil hs
      | cons hr hrest =>
        cases hrest with
        | nil =>
          simp only [RelMsg.width]
          obtain ⟨us, h1, h2⟩ := hr
          exact hasColumns_of hrc (by rw [Rel.directOutputSchema]; exact h1) h2 hs
        | cons _ _ =>
          simp only [RelMsg.width]
          exact hasColumns_of hrc (by rw [Rel.directOutputSchema]; simp) columns_nil hs
  | .extLeaf c d, h => by
      simp only [RelMsg.Safe] at h
      rw [Rel.fromProto]
      refine fine_bind (fine_ext reg hd d) (fun x _ hx => ?_)
      subst hx
      refine fine_bind (fine_common h) (fun rc _ hrc => fine_ok fun hs => ?_)
      simp only [RelMsg.HasSchema] at hs
      rw [RelMsg.width]
      exact hasColumns_of hrc (by rw [Rel.directOutputSchema]) columns_nil hs
  | .cross c l r adv, h => by
      simp only [RelMsg.Safe] at h
      rw [Rel.fromProto]
      refine fine_bind (rel_safe l h.2.1) (fun l' _ hl' => ?_)
      refine fine_bind (rel_safe r h.2.2) (fun r' _ hr' => ?_)
      refine fine_bind (fine_common h.1) (fun rc _ hrc => fine_ok fun hs => ?_)
      simp only [RelMsg.HasSchema] at hs
      rw [RelMsg.width]
      obtain ⟨ls, h1, h2⟩ := hl' hs.1
      obtain ⟨rs, g1, g2⟩ := hr' hs.2.1
      unfold Rel.recordType at h1 g1
      exact hasColumns_of hrc (by rw [Rel.directOutputSchema, h1, Res.ok_bind, g1]; rfl)
        (columns_append h2 g2) hs.2.2
  | .hashJoin c l r ks lks rks p t adv, h => by
      simp only [RelMsg.Safe] at h
      obtain ⟨hc, hl, hls, hr, hrs, hk, hp, he⟩ := h
      rw [Rel.fromProto]
      refine fine_bind (rel_safe l hl) (fun l' _ hl' => ?_)
      refine fine_bind (rel_safe r hr) (fun r' _ hr' => ?_)
      refine fine_bind (fine_recordType (hl' hls)) (fun ls hls' hlc => ?_)
      refine fine_bind (fine_recordType (hr' hrs)) (fun rs hrs' hrc' => ?_)
      refine fine_bind (fine_keys reg.toReg hlc.2 hrc'.2 hk) (fun ks' _ _ => ?_)
      refine fine_bind (fine_common hc) (fun rc _ hrc => ?_)
      unfold Rel.recordType at hls' hrs'
      have hcols : ∀ p', EmitInRange c (l.width + r.width) →
          (Rel.hashJoin rc l' r' ks' p' t.toInt8 adv).HasColumns (emitWidth c (l.width + r.width)) :=
        fun p' hs => hasColumns_of hrc (by rw [Rel.directOutputSchema, hls', Res.ok_bind, hrs']; rfl)
          (columns_append hlc hrc') hs
      rw [RelMsg.width]
      split
      · refine fine_ok fun hs => ?_
        simp only [RelMsg.HasSchema] at hs
        exact hcols _ hs.2.2
      · rename_i hpn
        refine fine_bind (fine_recordType (hcols _ (he (by simpa using hpn)))) (fun ts _ hts => ?_)
        refine fine_bind (expr_safe reg.toReg (some ts) (fun us hu => by cases hu; exact hts.2) p hp)
          (fun p' _ _ => fine_ok fun hs => ?_)
        simp only [RelMsg.HasSchema] at hs
        exact hcols _ hs.2.2
  | .mergeJoin c l r ks lks rks p t adv, h => by
      simp only [RelMsg.Safe] at h
      obtain ⟨hc, hl, hls, hr, hrs, hk, hp, he⟩ := h
      rw [Rel.fromProto]
      refine fine_bind (rel_safe l hl) (fun l' _ hl' => ?_)
      refine fine_bind (rel_safe r hr) (fun r' _ hr' => ?_)
      refine fine_bind (fine_recordType (hl' hls)) (fun ls hls' hlc => ?_)
      refine fine_bind (fine_recordType (hr' hrs)) (fun rs hrs' hrc' => ?_)
      refine fine_bind (fine_keys reg.toReg hlc.2 hrc'.2 hk) (fun ks' _ _ => ?_)
      refine fine_bind (fine_common hc) (fun rc _ hrc => ?_)
      unfold Rel.recordType at hls' hrs'
      have hcols : ∀ p', EmitInRange c (l.width + r.width) →
          (Rel.mergeJoin rc l' r' ks' p' t.toInt8 adv).HasColumns (emitWidth c (l.width + r.width)) :=
        fun p' hs => hasColumns_of hrc (by rw [Rel.directOutputSchema, hls', Res.ok_bind, hrs']; rfl)
          (columns_append hlc hrc') hs
      rw [RelMsg.width]
      split
      · refine fine_ok fun hs => ?_
        simp only [RelMsg.HasSchema] at hs
        exact hcols _ hs.2.2
      · rename_i hpn
        refine fine_bind (fine_recordType (hcols _ (he (by simpa using hpn)))) (fun ts _ hts => ?_)
        refine fine_bind (expr_safe reg.toReg (some ts) (fun us hu => by cases hu; exact hts.2) p hp)
          (fun p' _ _ => fine_ok fun hs => ?_)
        simp only [RelMsg.HasSchema] at hs
        exact hcols _ hs.2.2
  | .write c k s op i output, h => by
      simp only [RelMsg.Safe] at h
      rw [Rel.fromProto]
      refine fine_bind (rel_safe i h.1) (fun r _ _ => ?_)
      refine fine_bind (fine_schema h.2) (fun ns _ hns => ?_)
      refine fine_bind (fine_common? c) (fun rc _ hrc => ?_)
      have hcols : ∀ names a, (RelMsg.write c k s op i output).HasSchema reg.toReg →
          (Rel.write rc names a ns op r output).HasColumns (RelMsg.write c k s op i output).width := by
        intro names a hs
        simp only [RelMsg.HasSchema] at hs
        cases output <;> simp only [RelMsg.width]
        case noOutput => exact hasColumns_of hrc (by rw [Rel.directOutputSchema]) columns_nil hs.2
        case modifiedRecords => exact hasColumns_of hrc (by rw [Rel.directOutputSchema]) hns hs.2
        case unspecified => exact absurd rfl hs.1
        case other x => exact hasColumns_of hrc (by rw [Rel.directOutputSchema]) columns_nil hs.2
      split
      · cases k with
        | named names a => exact fine_ok (hcols _ _)
        | extTable => exact fine_err
        | unset => exact fine_ok (hcols _ _)
      · exact fine_err
theorem rels_safe : ∀ (ms : List RelMsg), RelMsg.SafeList reg.toReg ms →
    Fine (Rel.fromProtoList reg ms) (fun rs => RelMsg.HasSchemaList reg.toReg ms →
      List.Forall₂ (fun m r => Rel.HasColumns (RelMsg.width m) r) ms rs)
  | [], _ => by rw [Rel.fromProtoList]; exact fine_ok fun _ => List.Forall₂.nil
  | m :: ms, h => by
      simp only [RelMsg.SafeList] at h
      rw [Rel.fromProtoList]
      refine fine_bind (rel_safe m h.1) (fun r _ hr => ?_)
      refine fine_bind (rels_safe ms h.2) (fun rs _ hrs => fine_ok fun hs => ?_)
      simp only [RelMsg.HasSchemaList] at hs
      exact List.Forall₂.cons (hr hs.1) (hrs hs.2)
end
end

end Verif

import Verif.Lemmas.Reread
import Verif.Lemmas.Rel
/-!
# Helper lemmas about reading, writing and reading relations again
-/

namespace Verif

theorem mapL_source {α β : Type} {f : α → Res β} : ∀ {l : List α} {r : List β}, Res.mapL f l = .ok r →
    ∀ b ∈ r, ∃ a ∈ l, f a = .ok b
  | [], r, h => by simp only [Res.mapL_nil] at h; cases h; simp
  | x :: l, r, h => by
      simp only [Res.mapL_cons, Res.bind_eq_ok] at h
      obtain ⟨y, hy, ys, hys, h⟩ := h
      cases h
      intro b hb
      rcases List.mem_cons.1 hb with rfl | hb
      · exact ⟨x, by simp, hy⟩
      · obtain ⟨a, ha, h⟩ := mapL_source hys b hb
        exact ⟨a, by simp [ha], h⟩

theorem toProtoList_mapL (reg : Reg) : ∀ es : List Expr, Expr.toProtoList reg es = Res.mapL (Expr.toProto reg) es
  | [] => by simp [Expr.toProtoList]
  | e :: es => by simp [Expr.toProtoList, toProtoList_mapL reg es]

theorem fromProtoList_mapL (reg : Reg) (base : Option (List Ty)) : ∀ es : List ExprMsg,
    Expr.fromProtoList reg base es = Res.mapL (Expr.fromProto reg base) es
  | [] => by simp [Expr.fromProtoList]
  | e :: es => by simp [Expr.fromProtoList, fromProtoList_mapL reg base es]

theorem plainList_forall (reg : Reg) : ∀ ms : List ExprMsg, ExprMsg.PlainList reg ms ↔ ∀ m ∈ ms, m.Plain reg
  | [] => by simp [ExprMsg.PlainList]
  | m :: ms => by simp [ExprMsg.PlainList, plainList_forall reg ms]

theorem common_again (c : RelCommon) : commonFromProto? (some c.toMsg) = .ok c ∧
    commonFromProto (some c.toMsg) = .ok c := by
  obtain ⟨h, m, a⟩ := c
  cases m <;> simp [commonFromProto?, commonFromProto, RelCommon.toMsg]

theorem schema_again {s : Option NamedStructMsg} {n : NamedStruct} (hp : SchemaPlain s)
    (h : namedStructFromProto s = .ok n) :
    ∃ m, n.toMsg = .ok m ∧ namedStructFromProto (some m) = .ok n := by
  cases s with
  | none => cases h; exact ⟨⟨[], some (0, 0, [])⟩, rfl, rfl⟩
  | some s =>
    simp only [namedStructFromProto] at h
    cases hs : s.struct with
    | none => simp [hs] at h
    | some x =>
      obtain ⟨a, b, ts⟩ := x
      simp only [hs, Res.bind_eq_ok] at h
      obtain ⟨us, hu, h⟩ := h
      cases h
      obtain ⟨y, h3, h4⟩ := tys_again ts us (hp s a b ts rfl hs) hu
      exact ⟨⟨s.names, some (a, b, y)⟩, by simp [NamedStruct.toMsg, h3], by simp [namedStructFromProto, h4]⟩

theorem file_again (m : FileMsg) : fileFromProto (fileFromProto m).toMsg = fileFromProto m := by
  obtain ⟨p, a, b, c, d⟩ := m
  cases p <;> rfl

section
variable {reg : RelReg} (hsc : MadeUpStays reg.toReg reg.scalar) (hwi : MadeUpStays reg.toReg reg.window)
  (hag : UnknownStays reg.toReg reg.aggregate)

include hsc hwi in
theorem opt_again {base : Option (List Ty)} {m : ExprMsg} {e : Expr} (hp : m.Plain reg.toReg)
    (h : Expr.optFromProto reg.toReg base m = .ok e) :
    Again (Expr.optToProto reg.toReg) (Expr.optFromProto reg.toReg base) e := by
  unfold Expr.optFromProto at h
  split at h
  · cases h; exact ⟨.nil, by simp [Expr.optToProto], by simp [Expr.optFromProto, ExprMsg.isNil]⟩
  · obtain ⟨x, h1, h2⟩ := expr_again reg.toReg base hsc hwi m e hp h
    exact ⟨x, optToProto_of_ok h1, by simp [Expr.optFromProto, again_not_nil h2, h2]⟩

include hsc hwi in
theorem all_again {base : Option (List Ty)} {ms : List ExprMsg} {es : List Expr}
    (hp : ExprMsg.PlainList reg.toReg ms) (h : Expr.fromProtoList reg.toReg base ms = .ok es) :
    ∀ e ∈ es, ExprAgain reg.toReg base e := by
  rw [fromProtoList_mapL] at h
  exact read_again (fun m x => expr_again reg.toReg base hsc hwi m x) ms es
    ((plainList_forall reg.toReg ms).1 hp) h

theorem list_again {base : Option (List Ty)} {es : List Expr} (h : ∀ e ∈ es, ExprAgain reg.toReg base e) :
    Again (Expr.toProtoList reg.toReg) (Expr.fromProtoList reg.toReg base) es := by
  obtain ⟨m, h1, h2⟩ := again_list es h
  exact ⟨m, by rw [toProtoList_mapL]; exact h1, by rw [fromProtoList_mapL]; exact h2⟩

theorem litRow_again : ∀ (row : List PLit) (ls : List Lit), (∀ l ∈ row, l.Plain) →
    Res.mapL literalFromProto row = .ok ls →
    Again (Expr.toProtoList reg.toReg) (Expr.fromProtoList reg.toReg none) (ls.map Expr.ofLit)
  | [], ls, _, h => by
      simp only [Res.mapL_nil] at h; cases h
      exact ⟨[], by simp [Expr.toProtoList], by simp [Expr.fromProtoList]⟩
  | m :: row, ls, hp, h => by
      simp only [Res.mapL_cons, Res.bind_eq_ok] at h
      obtain ⟨a, ha, b, hb, h⟩ := h
      cases h
      obtain ⟨x, h1, h2⟩ := lit_again m a (hp m (by simp)) ha
      obtain ⟨y, h3, h4⟩ := litRow_again row b (fun l hl => hp l (by simp [hl])) hb
      rw [List.map_cons, ofLit_sent h1]
      exact ⟨.lit x :: y, by simp [Expr.toProtoList, Expr.toProto, h1, h3],
        by simp [Expr.fromProtoList, Expr.fromProto, h2, h4, ofLit_sent h1]⟩

include hsc hwi in
theorem readType_again {m : ReadTypeMsg} {k : ReadKind} (hp : m.Plain reg.toReg)
    (h : readTypeFromProto reg.toReg m = .ok k) :
    Again (ReadKind.toMsg reg.toReg) (readTypeFromProto reg.toReg) k := by
  cases m with
  | unset => simp [readTypeFromProto] at h
  | named ns a => cases h; exact ⟨_, rfl, rfl⟩
  | extTable d => cases h; exact ⟨_, rfl, rfl⟩
  | files is a =>
    cases h
    refine ⟨_, rfl, ?_⟩
    simp [readTypeFromProto, List.map_map, Function.comp_def, file_again]
  | iceberg d =>
    match d with
    | none => simp [readTypeFromProto] at h
    | some (u, .unset) => cases h; exact ⟨_, rfl, rfl⟩
    | some (u, .id s) =>
      cases h
      refine ⟨_, rfl, ?_⟩
      by_cases hs : s = ""
      · subst hs; rfl
      · simp [snapshotToMsg, hs, readTypeFromProto]
    | some (u, .timestamp s) =>
      cases h
      refine ⟨_, rfl, ?_⟩
      by_cases hs : s = 0
      · subst hs; rfl
      · simp [snapshotToMsg, hs, readTypeFromProto]
  | virt vs es =>
    simp only [readTypeFromProto] at h
    split at h
    · simp at h
    · simp only [Res.bind_eq_ok] at h
      obtain ⟨a, ha, b, hb, h⟩ := h
      cases h
      obtain ⟨hp1, hp2⟩ := hp
      have key : ∀ row ∈ a ++ b, Again (Expr.toProtoList reg.toReg) (Expr.fromProtoList reg.toReg none) row := by
        intro row hrow
        rcases List.mem_append.1 hrow with hr | hr
        · obtain ⟨r, hr', h'⟩ := mapL_source ha row hr
          simp only [Res.bind_eq_ok] at h'
          obtain ⟨ls, hl, h'⟩ := h'
          cases h'
          exact litRow_again r ls (hp1 r hr') hl
        · obtain ⟨r, hr', h'⟩ := mapL_source hb row hr
          exact exprs_again reg.toReg none hsc hwi r row (hp2 r hr') h'
      obtain ⟨x, h1, h2⟩ := again_list _ key
      exact ⟨.virt [] x, by simp [ReadKind.toMsg, h1], by simp [readTypeFromProto, h2]⟩

include hag in
theorem agg_call_again {ref : UInt32} {f : UInt32 × String} (h : resolveAgg reg.toReg ref = .ok f) :
    resolveAgg reg.toReg f.1 = .ok f := by
  unfold resolveAgg at h
  cases hd : reg.decodeFunc ref with
  | none => simp [hd] at h
  | some id =>
    simp only [hd] at h
    cases hl : reg.aggregate ref with
    | some d =>
      simp only [hl] at h
      cases h
      simp [resolveAgg, hd, hl]
    | none =>
      simp only [hl, Res.bind_eq_ok] at h
      obtain ⟨r, hr, h⟩ := h
      cases h
      obtain ⟨id', d', h1, h2, h3⟩ := hag ref id r.1 r.2 hd hl hr
      simp [resolveAgg, h1, h2, h3]

include hsc hwi hag in
theorem measure_again {base : Option (List Ty)} (m : MeasureMsg) (x : Measure) (hp : m.Plain reg.toReg)
    (h : measureFromProto reg.toReg base m = .ok x) :
    Again (Measure.toMsg reg.toReg) (measureFromProto reg.toReg base) x := by
  simp only [measureFromProto, Res.bind_eq_ok] at h
  obtain ⟨f, hf, e, he, h⟩ := h
  cases h
  obtain ⟨y, h1, h2⟩ := opt_again hsc hwi hp.2 he
  cases hm : m.measure with
  | none => simp [hm, aggFromProto] at hf
  | some g =>
    obtain ⟨p1, p2, p3⟩ := hp.1 g hm
    simp only [hm, aggFromProto] at hf
    cases ho : g.out with
    | none => simp [ho] at hf
    | some out =>
      simp only [ho, Res.bind_eq_ok] at hf
      obtain ⟨as, has, ss, hss, c, hc, t, ht, hf⟩ := hf
      cases hf
      obtain ⟨ams, h3, h4⟩ := args_again reg.toReg base hsc hwi _ _ p2 has
      obtain ⟨sms, h5, h6⟩ := sorts_again reg.toReg base hsc hwi _ _ p3 hss
      obtain ⟨tm, h7, h8⟩ := ty_again out t (p1 out ho) ht
      refine ⟨⟨some ⟨c.1, g.options, some tm, g.phase, g.invocation, ams, sms⟩, y⟩, ?_, ?_⟩
      · simp [Measure.toMsg, AggFn.toMsg, h1, h3, h5, h7]
      · simp [measureFromProto, aggFromProto, h2, h4, h6, h8, agg_call_again hag hc]

include hsc hwi in
theorem key_again {base : Option (List Ty)} (m : FieldRefMsg) (e : Expr) (hp : KeyPlain reg.toReg m)
    (h : fieldRefFromProto reg.toReg base m = .ok e) :
    Again (fieldRefToMsg reg.toReg) (fieldRefFromProto reg.toReg base) e := by
  match m with
  | none => simp [fieldRefFromProto] at h
  | some (root, ref) =>
    simp only [fieldRefFromProto] at h
    obtain ⟨x, h1, h2⟩ := expr_again reg.toReg base hsc hwi _ e (hp root ref rfl) h
    simp only [Expr.fromProto, Res.bind_eq_ok] at h
    obtain ⟨r, _, f, _, h⟩ := h
    cases h
    simp only [Expr.toProto, Res.bind_eq_ok] at h1
    obtain ⟨a, ha, b, hb, h1⟩ := h1
    cases h1
    exact ⟨some (b, a), by simp [fieldRefToMsg, ha, hb], by simpa [fieldRefFromProto] using h2⟩

theorem comparison_again {m : ComparisonMsg} {c : KeyComparison} (h : comparisonFromProto m = .ok c) :
    Again KeyComparison.toMsg comparisonFromProto c := by
  cases m <;> simp [comparisonFromProto] at h <;> subst h <;> exact ⟨_, rfl, rfl⟩

/-- both sides of a key can be written and read again -/
def BothAgain (reg : Reg) (ls rs : List Ty) (k : JoinKey) : Prop :=
  Again (fieldRefToMsg reg) (fieldRefFromProto reg (some ls)) k.left ∧
  Again (fieldRefToMsg reg) (fieldRefFromProto reg (some rs)) k.right ∧
  Again KeyComparison.toMsg comparisonFromProto k.comparison

include hsc hwi in
theorem keys_both {ls rs : List Ty} {ks : List JoinKeyMsg} {lks rks : List FieldRefMsg} {o : List JoinKey}
    (hp : KeysPlain reg.toReg ks lks rks) (h : joinKeysFromProto reg.toReg ls rs ks lks rks = .ok o) :
    ∀ k ∈ o, BothAgain reg.toReg ls rs k := by
  intro k hk
  unfold joinKeysFromProto at h
  split at h
  · obtain ⟨m, hm, h'⟩ := mapL_source h k hk
    simp only [joinKeyFromProto, Res.bind_eq_ok] at h'
    obtain ⟨l, hl, r, hr, c, hc, h'⟩ := h'
    cases h'
    exact ⟨key_again hsc hwi _ _ (hp.1 m hm).1 hl, key_again hsc hwi _ _ (hp.1 m hm).2 hr, comparison_again hc⟩
  · split at h
    · simp at h
    · obtain ⟨m, hm, h'⟩ := mapL_source h k hk
      simp only [Res.bind_eq_ok] at h'
      obtain ⟨l, hl, r, hr, h'⟩ := h'
      cases h'
      have := List.of_mem_zip hm
      exact ⟨key_again hsc hwi _ _ (hp.2.1 _ this.1) hl, key_again hsc hwi _ _ (hp.2.2 _ this.2) hr, _, rfl, rfl⟩

theorem keys_again {ls rs : List Ty} {o : List JoinKey} (h : ∀ k ∈ o, BothAgain reg.toReg ls rs k) :
    ∃ kms lr, Res.mapL (JoinKey.toMsg reg.toReg) o = .ok kms ∧ legacyKeys reg.toReg o = .ok lr ∧
      joinKeysFromProto reg.toReg ls rs kms lr.1 lr.2 = .ok o := by
  have h1 : ∀ k ∈ o, Again (JoinKey.toMsg reg.toReg) (joinKeyFromProto reg.toReg ls rs) k := by
    intro k hk
    obtain ⟨⟨a, a1, a2⟩, ⟨b, b1, b2⟩, ⟨c, c1, c2⟩⟩ := h k hk
    exact ⟨⟨a, b, c⟩, by simp [JoinKey.toMsg, a1, b1, c1], by simp [joinKeyFromProto, a2, b2, c2]⟩
  obtain ⟨kms, h2, h3⟩ := again_list o h1
  have h4 : ∃ lr, legacyKeys reg.toReg o = .ok lr := by
    unfold legacyKeys
    split
    · obtain ⟨lrs, hl⟩ := mapL_total' (f := fun k : JoinKey =>
        fieldRefToMsg reg.toReg k.left >>= fun l => fieldRefToMsg reg.toReg k.right >>= fun r => .ok (l, r)) (l := o)
        (fun k hk => by
          obtain ⟨⟨a, a1, a2⟩, ⟨b, b1, b2⟩, _⟩ := h k hk
          exact ⟨(a, b), by simp [a1, b1]⟩)
      exact ⟨_, by rw [hl]; rfl⟩
    · exact ⟨_, rfl⟩
  obtain ⟨lr, h4⟩ := h4
  refine ⟨kms, lr, h2, h4, ?_⟩
  cases o with
  | nil =>
    simp only [Res.mapL_nil] at h2; cases h2
    simp [legacyKeys, allEquality] at h4
    subst h4
    rfl
  | cons k o =>
    have : kms.length > 0 := by
      cases kms with
      | nil => simp at h3
      | cons => simp
    simp [joinKeysFromProto, this, h3]

theorem def_again {d : Option Nat} {x : ExtDef} (hp : DetailAgain reg d) (h : decodeExtensionDef reg d = .ok x) :
    decodeExtensionDef reg x.detail = .ok x := by
  simp only [decodeExtensionDef, Res.bind_eq_ok] at h
  obtain ⟨o, ho, h⟩ := h
  cases o with
  | none => cases h; simp [decodeExtensionDef, ExtDef.detail, ho]
  | some y =>
    simp only [Res.ok.injEq] at h
    subst h
    have hs : y.Says y.detail := by cases y <;> rfl
    simp [decodeExtensionDef, hp y ho _ hs]

theorem groupRefs_mem {sh : Sharing} : ∀ (g es : List Expr) (o : List Expr × List UInt32),
    groupRefs sh es g = .ok o → ∀ e ∈ o.1, e ∈ es ∨ e ∈ g
  | [], es, o, h => by simp only [groupRefs] at h; cases h; intro e he; exact .inl he
  | x :: g, es, o, h => by
      simp only [groupRefs, Res.bind_eq_ok] at h
      obtain ⟨f, _, h⟩ := h
      cases f with
      | some i =>
        simp only [Res.bind_eq_ok] at h
        obtain ⟨p, hp, h⟩ := h
        cases h
        intro e he
        rcases groupRefs_mem g es p hp e he with h | h
        · exact .inl h
        · exact .inr (by simp [h])
      | none =>
        simp only [Res.bind_eq_ok] at h
        obtain ⟨p, hp, h⟩ := h
        cases h
        intro e he
        rcases groupRefs_mem g (es ++ [x]) p hp e he with h | h
        · rcases List.mem_append.1 h with h | h
          · exact .inl h
          · exact .inr (by simp at h; simp [h])
        · exact .inr (by simp [h])

theorem groupingLoop_mem {sh : Sharing} : ∀ (gs : List (List Expr)) (es : List Expr)
    (o : List Expr × List (List UInt32)), groupingLoop sh es gs = .ok o →
    ∀ e ∈ o.1, e ∈ es ∨ ∃ g ∈ gs, e ∈ g
  | [], es, o, h => by simp only [groupingLoop] at h; cases h; intro e he; exact .inl he
  | g :: gs, es, o, h => by
      simp only [groupingLoop, Res.bind_eq_ok] at h
      obtain ⟨p, hp, q, hq, h⟩ := h
      cases h
      intro e he
      rcases groupingLoop_mem gs p.1 q hq e he with h | ⟨g', hg, h⟩
      · rcases groupRefs_mem g es p hp e h with h | h
        · exact .inl h
        · exact .inr ⟨g, by simp, h⟩
      · exact .inr ⟨g', by simp [hg], h⟩

theorem groupRefs_nil {sh : Sharing} : ∀ (g es : List Expr) (o : List Expr × List UInt32),
    groupRefs sh es g = .ok o → o.1 = [] → es = [] ∧ o.2 = []
  | [], es, o, h, hn => by simp only [groupRefs] at h; cases h; exact ⟨hn, rfl⟩
  | x :: g, es, o, h, hn => by
      simp only [groupRefs, Res.bind_eq_ok] at h
      obtain ⟨f, hf, h⟩ := h
      cases f with
      | some i =>
        simp only [Res.bind_eq_ok] at h
        obtain ⟨p, hp, h⟩ := h
        cases h
        obtain ⟨rfl, _⟩ := groupRefs_nil g es p hp hn
        simp [findExpr] at hf
      | none =>
        simp only [Res.bind_eq_ok] at h
        obtain ⟨p, hp, h⟩ := h
        cases h
        have := (groupRefs_nil g (es ++ [x]) p hp hn).1
        simp at this

theorem groupingLoop_nil {sh : Sharing} : ∀ (gs : List (List Expr)) (es : List Expr)
    (o : List Expr × List (List UInt32)), groupingLoop sh es gs = .ok o → o.1 = [] →
    es = [] ∧ ∀ r ∈ o.2, r = []
  | [], es, o, h, hn => by simp only [groupingLoop] at h; cases h; exact ⟨hn, by simp⟩
  | g :: gs, es, o, h, hn => by
      simp only [groupingLoop, Res.bind_eq_ok] at h
      obtain ⟨p, hp, q, hq, h⟩ := h
      cases h
      obtain ⟨h1, h2⟩ := groupingLoop_nil gs p.1 q hq hn
      obtain ⟨h3, h4⟩ := groupRefs_nil g es p hp h1
      exact ⟨h3, by simpa [h4] using h2⟩

theorem empty_groups {sh : Sharing} : ∀ (rs : List (List UInt32)), (∀ r ∈ rs, r = []) →
    groupingLoop sh [] (rs.map fun _ => []) = .ok ([], rs)
  | [], _ => rfl
  | r :: rs, h => by
      have hr : r = [] := h r (by simp)
      have := empty_groups (sh := sh) rs fun x hx => h x (by simp [hx])
      simp only [List.map_cons, groupingLoop, groupRefs, Res.ok_bind, this, hr]

theorem read_empty (reg : Reg) (base : Option (List Ty)) : ∀ (rs : List (List UInt32)),
    Res.mapL (fun g : GroupingMsg => Expr.fromProtoList reg base g.legacy) (rs.map fun r => ⟨[], r⟩) =
      .ok (rs.map fun _ => [])
  | [] => rfl
  | r :: rs => by simp [Expr.fromProtoList, read_empty reg base rs]

include hsc hwi in
theorem groupings_again {base : Option (List Ty)} {es : List ExprMsg} {gs : List GroupingMsg}
    {o : List Expr × List (List UInt32)} (hp : ExprMsg.PlainList reg.toReg es)
    (hg : ∀ g ∈ gs, ExprMsg.PlainList reg.toReg g.legacy)
    (h : groupingsFromProto reg base es gs = .ok o) :
    ∃ ms, Expr.toProtoList reg.toReg o.1 = .ok ms ∧
      groupingsFromProto reg base ms (o.2.map fun r => ⟨[], r⟩) = .ok o := by
  have hall : ∀ e ∈ o.1, ExprAgain reg.toReg base e := by
    unfold groupingsFromProto at h
    split at h
    · simp only [Res.bind_eq_ok] at h
      obtain ⟨a, ha, h⟩ := h
      cases h
      exact all_again hsc hwi hp ha
    · simp only [Res.bind_eq_ok] at h
      obtain ⟨a, ha, h⟩ := h
      intro e he
      rcases groupingLoop_mem a [] o h e he with h | ⟨g, hm, h⟩
      · simp at h
      · obtain ⟨g', hg', h'⟩ := mapL_source ha g hm
        exact all_again hsc hwi (hg g' hg') h' e h
  obtain ⟨ms, h1, h2⟩ := list_again hall
  refine ⟨ms, h1, ?_⟩
  unfold groupingsFromProto
  by_cases hl : ms.length > 0
  · simp only [if_pos hl, h2, Res.ok_bind, List.map_map]
    simp [Function.comp_def]
  · have hn : o.1 = [] := by
      have : ms = [] := by cases ms with
        | nil => rfl
        | cons => simp at hl
      subst this
      simp only [Expr.fromProtoList, Res.ok.injEq] at h2
      exact h2.symm
    rw [if_neg hl, read_empty]
    simp only [Res.ok_bind, groupingExprs]
    unfold groupingsFromProto at h
    split at h
    · rename_i hes
      simp only [Res.bind_eq_ok] at h
      obtain ⟨a, ha, h⟩ := h
      cases h
      simp only at hn
      subst hn
      cases es with
      | nil => simp at hes
      | cons x xs =>
        simp only [Expr.fromProtoList, Res.bind_eq_ok] at ha
        obtain ⟨_, _, _, _, ha⟩ := ha
        cases ha
    · simp only [Res.bind_eq_ok] at h
      obtain ⟨a, ha, h⟩ := h
      rw [empty_groups o.2 (groupingLoop_nil a [] o h hn).2, ← hn]

abbrev RelAgain' (reg : RelReg) (r : Rel) : Prop := Again (Rel.toProto reg.toReg) (Rel.fromProto reg) r

theorem relsLength : ∀ (ms : List RelMsg) (rs : List Rel), Rel.fromProtoList reg ms = .ok rs →
    ms.length = rs.length
  | [], _, h => by simp only [Rel.fromProtoList] at h; cases h; rfl
  | m :: ms, rs, h => by
      simp only [Rel.fromProtoList, Res.bind_eq_ok] at h
      obtain ⟨a, _, b, hb, h⟩ := h
      cases h
      simp [relsLength ms b hb]

theorem int8_again (t : Int32) : t.toInt8.toInt32.toInt8 = t.toInt8 := by simp

include hsc hwi hag

mutual
theorem rel_again : ∀ (m : RelMsg) (r : Rel), m.Plain reg → Rel.fromProto reg m = .ok r → RelAgain' reg r
  | .nil, r, _, h => by simp [Rel.fromProto] at h
  | .unset, r, _, h => by simp [Rel.fromProto] at h
  | .other, r, _, h => by simp [Rel.fromProto] at h
  | .read c s f b p a k, r, hp, h => by
      simp only [Rel.fromProto, Res.bind_eq_ok] at h
      obtain ⟨k', hk, c', _, s', hs, f', hf, b', hb, h⟩ := h
      cases h
      simp only [RelMsg.Plain] at hp
      obtain ⟨p1, p2, p3, p4, p5⟩ := hp
      obtain ⟨km, h1, h2⟩ := readType_again hsc hwi p4 hk
      obtain ⟨sm, h3, h4⟩ := schema_again p1 hs
      obtain ⟨fm, h5, h6⟩ := opt_again hsc hwi p2 hf
      obtain ⟨bm, h7, h8⟩ := opt_again hsc hwi p3 hb
      have hproj : (((p.map reg.maskFrom).map reg.maskTo).map reg.maskFrom) = p.map reg.maskFrom := by
        cases p with
        | none => rfl
        | some m => simp [p5 m rfl]
      exact ⟨_, by simp only [Rel.toProto, h1, h3, h5, h7, Res.ok_bind]; rfl,
        by simp only [Rel.fromProto, h2, h4, h6, h8, Res.ok_bind, (common_again c').1, hproj]⟩
  | .project c i es a, r, hp, h => by
      simp only [Rel.fromProto, Res.bind_eq_ok] at h
      obtain ⟨i', hi, base, hb, es', he, h⟩ := h
      simp only [RelMsg.Plain] at hp
      split at h
      · simp at h
      · rename_i hl
        simp only [Res.bind_eq_ok] at h
        obtain ⟨c', _, h⟩ := h
        cases h
        obtain ⟨im, h1, h2⟩ := rel_again i i' hp.1 hi
        obtain ⟨em, h3, h4⟩ := exprs_again reg.toReg (some base) hsc hwi es es' hp.2 he
        exact ⟨_, by simp only [Rel.toProto, h1, h3, Res.ok_bind]; rfl,
          by simp only [Rel.fromProto, h2, hb, h4, Res.ok_bind, (common_again c').1, if_neg hl]⟩
  | .join c l r e p t a, x, hp, h => by
      simp only [Rel.fromProto] at h
      split at h
      · simp at h
      · rename_i ht
        simp only [Res.bind_eq_ok] at h
        obtain ⟨l', hl, r', hr, c', _, ls, hls, rs, hrs, e', he, p', hpp, h⟩ := h
        cases h
        simp only [RelMsg.Plain] at hp
        obtain ⟨lm, h1, h2⟩ := rel_again l l' hp.1 hl
        obtain ⟨rm, h3, h4⟩ := rel_again r r' hp.2.1 hr
        obtain ⟨em, h5, h6⟩ := expr_again reg.toReg (some (ls ++ rs)) hsc hwi e e' hp.2.2.1 he
        obtain ⟨pm, h7, h8⟩ := opt_again hsc hwi hp.2.2.2 hpp
        exact ⟨_, by simp only [Rel.toProto, h1, h3, h5, h7, Res.ok_bind]; rfl,
          by simp only [Rel.fromProto, if_neg ht, h2, h4, hls, hrs, h6, h8, Res.ok_bind, (common_again c').2]⟩
  | .cross c l r a, x, hp, h => by
      simp only [Rel.fromProto, Res.bind_eq_ok] at h
      obtain ⟨l', hl, r', hr, c', _, h⟩ := h
      cases h
      simp only [RelMsg.Plain] at hp
      obtain ⟨lm, h1, h2⟩ := rel_again l l' hp.1 hl
      obtain ⟨rm, h3, h4⟩ := rel_again r r' hp.2 hr
      exact ⟨_, by simp only [Rel.toProto, h1, h3, Res.ok_bind]; rfl,
        by simp only [Rel.fromProto, h2, h4, Res.ok_bind, (common_again c').2]⟩
  | .fetch c i o n a, x, hp, h => by
      simp only [Rel.fromProto, Res.bind_eq_ok] at h
      obtain ⟨i', hi, h⟩ := h
      simp only [RelMsg.Plain] at hp
      obtain ⟨im, h1, h2⟩ := rel_again i i' hp hi
      cases o with
      | none => simp at h
      | some o =>
        cases n with
        | none => simp at h
        | some n =>
          simp only [Res.bind_eq_ok] at h
          obtain ⟨c', _, h⟩ := h
          cases h
          exact ⟨_, by simp only [Rel.toProto, h1, Res.ok_bind]; rfl,
            by simp only [Rel.fromProto, h2, Res.ok_bind, (common_again c').1]⟩
  | .aggregate c i es gs ms a, x, hp, h => by
      simp only [Rel.fromProto, Res.bind_eq_ok] at h
      obtain ⟨i', hi, base, hb, g, hg, ms', hm, c', _, h⟩ := h
      cases h
      simp only [RelMsg.Plain] at hp
      obtain ⟨im, h1, h2⟩ := rel_again i i' hp.1 hi
      obtain ⟨em, h3, h4⟩ := groupings_again hsc hwi hp.2.1 hp.2.2.1 hg
      obtain ⟨mm, h5, h6⟩ := again_list ms'
        (read_again (fun m x => measure_again (base := some base) hsc hwi hag m x) ms ms' hp.2.2.2 hm)
      exact ⟨_, by simp only [Rel.toProto, h1, h3, h5, Res.ok_bind]; rfl,
        by simp only [Rel.fromProto, h2, hb, h4, h6, Res.ok_bind, (common_again c').2]⟩
  | .sort c i ss a, x, hp, h => by
      simp only [Rel.fromProto, Res.bind_eq_ok] at h
      obtain ⟨i', hi, base, hb, ss', he, h⟩ := h
      simp only [RelMsg.Plain] at hp
      split at h
      · simp at h
      · rename_i hl
        simp only [Res.bind_eq_ok] at h
        obtain ⟨c', _, h⟩ := h
        cases h
        obtain ⟨im, h1, h2⟩ := rel_again i i' hp.1 hi
        obtain ⟨em, h3, h4⟩ := sorts_again reg.toReg (some base) hsc hwi ss ss' hp.2 he
        exact ⟨_, by simp only [Rel.toProto, h1, h3, Res.ok_bind]; rfl,
          by simp only [Rel.fromProto, h2, hb, h4, Res.ok_bind, (common_again c').2, if_neg hl]⟩
  | .filter c i e a, x, hp, h => by
      simp only [Rel.fromProto, Res.bind_eq_ok] at h
      obtain ⟨i', hi, base, hb, e', he, c', _, h⟩ := h
      cases h
      simp only [RelMsg.Plain] at hp
      obtain ⟨im, h1, h2⟩ := rel_again i i' hp.1 hi
      obtain ⟨em, h3, h4⟩ := expr_again reg.toReg (some base) hsc hwi e e' hp.2 he
      exact ⟨_, by simp only [Rel.toProto, h1, h3, Res.ok_bind]; rfl,
        by simp only [Rel.fromProto, h2, hb, h4, Res.ok_bind, (common_again c').1]⟩
  | .set c is op a, x, hp, h => by
      simp only [Rel.fromProto] at h
      split at h
      · simp at h
      · rename_i hl
        simp only [Res.bind_eq_ok] at h
        obtain ⟨is', hi, h⟩ := h
        split at h
        · simp at h
        · rename_i ho
          simp only [RelMsg.Plain] at hp
          obtain ⟨im, h1, h2, h3⟩ := rels_again is is' hp hi
          have hl' : ¬ im.length < 2 := by rw [h3, ← relsLength is is' hi]; exact hl
          match is', h, h1, h2 with
          | i :: rest, h, h1, h2 =>
            simp only [Res.bind_eq_ok] at h
            obtain ⟨pr, hpr, u, hu, c', _, h⟩ := h
            cases h
            exact ⟨_, by simp only [Rel.toProto, h1, Res.ok_bind]; rfl,
              by simp only [Rel.fromProto, if_neg hl', if_neg ho, h2, hpr, hu, Res.ok_bind, (common_again c').2]⟩
  | .extSingle c i d, x, hp, h => by
      simp only [Rel.fromProto, Res.bind_eq_ok] at h
      obtain ⟨i', hi, d', hd, c', _, h⟩ := h
      cases h
      simp only [RelMsg.Plain] at hp
      obtain ⟨im, h1, h2⟩ := rel_again i i' hp.1 hi
      exact ⟨_, by simp only [Rel.toProto, h1, Res.ok_bind]; rfl,
        by simp only [Rel.fromProto, h2, def_again hp.2 hd, Res.ok_bind, (common_again c').2]⟩
  | .extLeaf c d, x, hp, h => by
      simp only [Rel.fromProto, Res.bind_eq_ok] at h
      obtain ⟨d', hd, c', _, h⟩ := h
      cases h
      simp only [RelMsg.Plain] at hp
      exact ⟨_, by simp only [Rel.toProto]; rfl,
        by simp only [Rel.fromProto, def_again hp hd, Res.ok_bind, (common_again c').2]⟩
  | .extMulti c is d, x, hp, h => by
      simp only [Rel.fromProto, Res.bind_eq_ok] at h
      obtain ⟨i', hi, d', hd, c', _, h⟩ := h
      cases h
      simp only [RelMsg.Plain] at hp
      obtain ⟨im, h1, h2, _⟩ := rels_again is i' hp.1 hi
      exact ⟨_, by simp only [Rel.toProto, h1, Res.ok_bind]; rfl,
        by simp only [Rel.fromProto, h2, def_again hp.2 hd, Res.ok_bind, (common_again c').2]⟩
  | .hashJoin c l r ks lks rks p t a, x, hp, h => by
      simp only [Rel.fromProto, Res.bind_eq_ok] at h
      obtain ⟨l', hl, r', hr, ls, hls, rs, hrs, ks', hk, c', _, h⟩ := h
      simp only [RelMsg.Plain] at hp
      obtain ⟨lm, h1, h2⟩ := rel_again l l' hp.1 hl
      obtain ⟨rm, h3, h4⟩ := rel_again r r' hp.2.1 hr
      obtain ⟨km, lr, h5, h6, h7⟩ := keys_again (keys_both hsc hwi hp.2.2.1 hk)
      split at h
      · cases h
        exact ⟨_, by simp only [Rel.toProto, h1, h3, h5, h6, Expr.optToProto, Res.ok_bind]; rfl,
          by simp only [Rel.fromProto, h2, h4, hls, hrs, h7, Res.ok_bind, (common_again c').2, int8_again,
            ExprMsg.isNil, if_true]⟩
      · simp only [Res.bind_eq_ok] at h
        obtain ⟨base, hb, p', hpp, h⟩ := h
        cases h
        obtain ⟨pm, h8, h9⟩ := expr_again reg.toReg (some base) hsc hwi p p' hp.2.2.2 hpp
        exact ⟨_, by simp only [Rel.toProto, h1, h3, h5, h6, optToProto_of_ok h8, Res.ok_bind]; rfl,
          by simp only [Rel.fromProto, h2, h4, hls, hrs, h7, Res.ok_bind, (common_again c').2, int8_again,
            again_not_nil h9, hb, h9, Bool.false_eq_true, if_false]⟩
  | .mergeJoin c l r ks lks rks p t a, x, hp, h => by
      simp only [Rel.fromProto, Res.bind_eq_ok] at h
      obtain ⟨l', hl, r', hr, ls, hls, rs, hrs, ks', hk, c', _, h⟩ := h
      simp only [RelMsg.Plain] at hp
      obtain ⟨lm, h1, h2⟩ := rel_again l l' hp.1 hl
      obtain ⟨rm, h3, h4⟩ := rel_again r r' hp.2.1 hr
      obtain ⟨km, lr, h5, h6, h7⟩ := keys_again (keys_both hsc hwi hp.2.2.1 hk)
      split at h
      · cases h
        exact ⟨_, by simp only [Rel.toProto, h1, h3, h5, h6, Expr.optToProto, Res.ok_bind]; rfl,
          by simp only [Rel.fromProto, h2, h4, hls, hrs, h7, Res.ok_bind, (common_again c').2, int8_again,
            ExprMsg.isNil, if_true]⟩
      · simp only [Res.bind_eq_ok] at h
        obtain ⟨base, hb, p', hpp, h⟩ := h
        cases h
        obtain ⟨pm, h8, h9⟩ := expr_again reg.toReg (some base) hsc hwi p p' hp.2.2.2 hpp
        exact ⟨_, by simp only [Rel.toProto, h1, h3, h5, h6, optToProto_of_ok h8, Res.ok_bind]; rfl,
          by simp only [Rel.fromProto, h2, h4, hls, hrs, h7, Res.ok_bind, (common_again c').2, int8_again,
            again_not_nil h9, hb, h9, Bool.false_eq_true, if_false]⟩
  | .write c k s op i o, x, hp, h => by
      simp only [Rel.fromProto, Res.bind_eq_ok] at h
      obtain ⟨i', hi, s', hs, c', _, h⟩ := h
      simp only [RelMsg.Plain] at hp
      obtain ⟨p1, p2, rfl⟩ := hp
      obtain ⟨im, h1, h2⟩ := rel_again i i' p2 hi
      obtain ⟨sm, h3, h4⟩ := schema_again p1 hs
      split at h
      · rename_i hop
        cases k with
        | extTable => simp at h
        | named ns a =>
          cases h
          exact ⟨_, by simp only [Rel.toProto, h1, h3, Res.ok_bind]; rfl,
            by simp only [Rel.fromProto, h2, h4, Res.ok_bind, (common_again c').1, hop, if_true]⟩
        | unset =>
          cases h
          exact ⟨_, by simp only [Rel.toProto, h1, h3, Res.ok_bind]; rfl,
            by simp only [Rel.fromProto, h2, h4, Res.ok_bind, (common_again c').1, hop, if_true]⟩
      · simp at h
theorem rels_again : ∀ (ms : List RelMsg) (rs : List Rel), RelMsg.PlainList reg ms →
    Rel.fromProtoList reg ms = .ok rs →
    ∃ ms', Rel.toProtoList reg.toReg rs = .ok ms' ∧ Rel.fromProtoList reg ms' = .ok rs ∧
      ms'.length = rs.length
  | [], rs, _, h => by
      simp only [Rel.fromProtoList] at h; cases h
      exact ⟨[], by simp [Rel.toProtoList], by simp [Rel.fromProtoList], rfl⟩
  | m :: ms, rs, hp, h => by
      simp only [Rel.fromProtoList, Res.bind_eq_ok] at h
      obtain ⟨a, ha, b, hb, h⟩ := h
      cases h
      simp only [RelMsg.PlainList] at hp
      obtain ⟨x, h1, h2⟩ := rel_again m a hp.1 ha
      obtain ⟨y, h3, h4, h5⟩ := rels_again ms b hp.2 hb
      exact ⟨x :: y, by simp [Rel.toProtoList, h1, h3], by simp [Rel.fromProtoList, h2, h4], by simp [h5]⟩
end

theorem planRel_again (m : PlanRelMsg RelMsg) (r : Relation) (hp : m.Plain reg)
    (h : Relation.fromProto (Rel.fromProto reg) m = .ok r) :
    Again (Relation.toProto (Rel.toProto reg.toReg)) (Relation.fromProto (Rel.fromProto reg)) r := by
  cases m with
  | unset => simp [Relation.fromProto] at h
  | rel m =>
    simp only [Relation.fromProto, Res.bind_eq_ok] at h
    obtain ⟨a, ha, h⟩ := h
    cases h
    obtain ⟨x, h1, h2⟩ := rel_again hsc hwi hag m a hp ha
    exact ⟨.rel x, by simp [Relation.toProto, h1], by simp [Relation.fromProto, h2]⟩
  | root m ns =>
    simp only [Relation.fromProto, Res.bind_eq_ok] at h
    obtain ⟨a, ha, u, hu, h⟩ := h
    cases h
    obtain ⟨x, h1, h2⟩ := rel_again hsc hwi hag m a hp ha
    exact ⟨.root x ns, by simp [Relation.toProto, h1], by simp only [Relation.fromProto, h2, hu, Res.ok_bind]⟩

theorem plan_again (m : PlanMsg RelMsg) (p : Plan) (hp : m.Plain reg)
    (h : Plan.fromProto (Rel.fromProto reg) m = .ok p) :
    Again (Plan.toProto (Rel.toProto reg.toReg)) (Plan.fromProto (Rel.fromProto reg)) p := by
  simp only [Plan.fromProto, Res.bind_eq_ok] at h
  obtain ⟨rs, hr, bs, hb, h⟩ := h
  cases h
  obtain ⟨x, h1, h2⟩ := again_list rs (read_again (planRel_again hsc hwi hag) m.relations rs hp.1 hr)
  have hbind : ∀ (b : UInt32 × PLit) (y : Binding), b.2.Plain →
      (literalFromProto b.2 >>= fun l => Res.ok (Binding.mk b.1 l)) = .ok y →
      Again (fun b : Binding => literalToProto b.value >>= fun l => .ok (b.anchor, l))
        (fun b : UInt32 × PLit => literalFromProto b.2 >>= fun l => Res.ok (Binding.mk b.1 l)) y := by
    intro b y hpl hy
    simp only [Res.bind_eq_ok] at hy
    obtain ⟨l, hl, hy⟩ := hy
    cases hy
    obtain ⟨z, h3, h4⟩ := lit_again b.2 l hpl hl
    exact ⟨(b.1, z), by simp [h3], by simp [h4]⟩
  obtain ⟨z, h3, h4⟩ := again_list bs (read_again hbind m.bindings bs hp.2 hb)
  exact ⟨⟨x, z, m.urls⟩, by simp [Plan.toProto, h1, h3], by simp [Plan.fromProto, h2, h4]⟩

end

end Verif

import Verif.Spec.RelProto
import Verif.Lemmas.ExprProto
import Verif.Lemmas.Types
/-!
# Lemmas on relation round trips
-/

namespace Verif

theorem mapL_exact {α β} {f : α → Res β} {g : β → Res α} : ∀ (xs : List α) (ms : List β),
    (∀ x ∈ xs, ∀ m, f x = .ok m → g m = .ok x) → Res.mapL f xs = .ok ms → Res.mapL g ms = .ok xs
  | [], ms, _, h => by simp only [Res.mapL_nil] at h; cases h; rfl
  | x :: xs, ms, hx, h => by
      simp only [Res.mapL_cons, Res.bind_eq_ok] at h
      obtain ⟨m, hm, ms', hms, h⟩ := h
      cases h
      simp only [Res.mapL_cons, hx x (by simp) m hm,
        mapL_exact xs ms' (fun x h => hx x (by simp [h])) hms, Res.ok_bind]

theorem common_exact (c : RelCommon) : commonFromProto (some c.toMsg) = .ok c := by
  obtain ⟨h, m, a⟩ := c
  cases m <;> rfl

theorem common?_exact (c : RelCommon) : commonFromProto? (some c.toMsg) = .ok c := common_exact c

theorem namedStruct_exact {s : NamedStruct} {m : NamedStructMsg} (hs : ∀ t ∈ s.types, t.Sendable)
    (h : s.toMsg = .ok m) : namedStructFromProto (some m) = .ok s := by
  simp only [NamedStruct.toMsg, Res.bind_eq_ok] at h
  obtain ⟨ts, hts, h⟩ := h
  cases h
  simp only [namedStructFromProto, types_exact _ _ hs hts, Res.ok_bind]

theorem file_exact (f : FileItem) (h : f.Sendable) : fileFromProto f.toMsg = f := by
  obtain ⟨p, path, i, st, l, fm⟩ := f
  simp only [FileItem.Sendable] at h
  rcases h with rfl | rfl | rfl | rfl <;> rfl

theorem files_exact : ∀ fs : List FileItem, (∀ f ∈ fs, f.Sendable) →
    (fs.map FileItem.toMsg).map fileFromProto = fs
  | [], _ => rfl
  | f :: fs, h => by
      simp only [List.map_cons, file_exact f (h f (by simp)),
        files_exact fs (fun f hf => h f (by simp [hf]))]

theorem opt_exact {reg : Reg} {base : Option (List Ty)} {e : Expr} {m : ExprMsg}
    (hs : e.NilOrSendable reg base) (h : Expr.optToProto reg e = .ok m) :
    Expr.optFromProto reg base m = .ok e := by
  rcases hs with rfl | hs
  · simp only [Expr.optToProto] at h; cases h; rfl
  · rw [optToProto_sendable hs] at h
    simp [Expr.optFromProto, toProto_not_nil h, expr_exact reg base e m hs h]

theorem readKind_exact {reg : Reg} {k : ReadKind} {m : ReadTypeMsg} (hs : k.Sendable reg)
    (h : k.toMsg reg = .ok m) : readTypeFromProto reg m = .ok k := by
  cases k with
  | named names adv => simp only [ReadKind.toMsg] at h; cases h; rfl
  | virt rows =>
      simp only [ReadKind.toMsg, Res.bind_eq_ok] at h
      obtain ⟨ms, hms, h⟩ := h
      cases h
      simp only [ReadKind.Sendable] at hs
      simp [readTypeFromProto,
        mapL_exact rows ms (fun row hr m hm => exprs_exact reg none row m (hs row hr) hm) hms]
  | extTable d => simp only [ReadKind.toMsg] at h; cases h; rfl
  | iceberg uri ts id adv =>
      simp only [ReadKind.toMsg] at h; cases h
      simp only [ReadKind.Sendable] at hs
      obtain ⟨rfl, hs⟩ := hs
      simp only [snapshotToMsg]
      by_cases hid : id = "" <;> by_cases hts : ts = 0 <;>
        simp_all [readTypeFromProto]
  | files items adv =>
      simp only [ReadKind.toMsg] at h; cases h
      simp only [ReadKind.Sendable] at hs
      simp only [readTypeFromProto, files_exact items hs]

theorem agg_exact {reg : Reg} {base : Option (List Ty)} {f : AggFn} {m : AggMsg}
    (hd : f.DeclaredIn reg) (ht : f.a.outputType.Sendable) (ha : EArg.SendableList reg base f.args)
    (hs : ESort.SendableList reg base f.sorts) (h : f.toMsg reg = .ok m) :
    aggFromProto reg base (some m) = .ok f := by
  simp only [AggFn.toMsg, Res.bind_eq_ok] at h
  obtain ⟨as, has, ss, hss, t, htt, h⟩ := h
  cases h
  have hr : resolveAgg reg f.a.funcRef = .ok (f.a.funcRef, f.a.declaration) := by
    obtain ⟨id, h1, h2⟩ := hd
    rcases h2 with h2 | ⟨h2, ⟨name, h3⟩, h4⟩
    · simp [resolveAgg, h1, h2]
    · simp [resolveAgg, h1, h2, h3, h4]
  simp only [aggFromProto, args_exact reg base _ _ ha has, sorts_exact reg base _ _ hs hss, hr,
    type_exact ht htt, Res.ok_bind]

theorem measure_exact {reg : Reg} {base : Option (List Ty)} {x : Measure} {m : MeasureMsg}
    (hs : x.Sendable reg base) (h : x.toMsg reg = .ok m) : measureFromProto reg base m = .ok x := by
  obtain ⟨f, e⟩ := x
  obtain ⟨⟨f, rfl, h1, h2, h3, h4⟩, h5⟩ := hs
  simp only [Measure.toMsg, Res.bind_eq_ok] at h
  obtain ⟨a, ha, b, hb, h⟩ := h
  cases h
  simp only [measureFromProto, agg_exact h1 h2 h3 h4 ha, opt_exact h5 hb, Res.ok_bind]

theorem fieldRef_exact {reg : Reg} {base : Option (List Ty)} {e : Expr} {m : FieldRefMsg}
    (hs : e.RefSendable reg base) (h : fieldRefToMsg reg e = .ok m) :
    fieldRefFromProto reg base m = .ok e := by
  obtain ⟨⟨root, ref, known, rfl⟩, hs⟩ := hs
  simp only [fieldRefToMsg, Res.bind_eq_ok] at h
  obtain ⟨a, ha, b, hb, h⟩ := h
  cases h
  exact expr_exact reg base _ (.selection b a) hs (by simp only [Expr.toProto, ha, hb, Res.ok_bind])

theorem joinKey_exact {reg : Reg} {ls rs : List Ty} {k : JoinKey} {m : JoinKeyMsg}
    (hs : k.Sendable reg ls rs) (h : k.toMsg reg = .ok m) :
    joinKeyFromProto reg ls rs m = .ok k := by
  obtain ⟨h1, h2, h3⟩ := hs
  simp only [JoinKey.toMsg, Res.bind_eq_ok] at h
  obtain ⟨a, ha, b, hb, c, hc, h⟩ := h
  cases h
  have hcc : comparisonFromProto c = .ok k.comparison := by
    cases hk : k.comparison with
    | nil => exact absurd hk h3
    | _ => rw [hk] at hc; simp only [KeyComparison.toMsg] at hc; cases hc; rfl
  simp only [joinKeyFromProto, fieldRef_exact h1 ha, fieldRef_exact h2 hb, hcc, Res.ok_bind]

theorem mapL_length' {α β} {f : α → Res β} : ∀ (xs : List α) (ms : List β),
    Res.mapL f xs = .ok ms → ms.length = xs.length
  | [], ms, h => by simp only [Res.mapL_nil] at h; cases h; rfl
  | x :: xs, ms, h => by
      simp only [Res.mapL_cons, Res.bind_eq_ok] at h
      obtain ⟨m, hm, ms', hms, h⟩ := h
      cases h
      simp [mapL_length' xs ms' hms]

/-- The legacy keys alone are read as the same keys. -/
theorem legacy_exact {reg : Reg} {ls rs : List Ty} : ∀ (ks : List JoinKey)
    (lrs : List (FieldRefMsg × FieldRefMsg)), (∀ k ∈ ks, k.Sendable reg ls rs) →
    allEquality ks = true →
    Res.mapL (fun k : JoinKey =>
      fieldRefToMsg reg k.left >>= fun l => fieldRefToMsg reg k.right >>= fun r => .ok (l, r)) ks
      = .ok lrs →
    Res.mapL (fun p : FieldRefMsg × FieldRefMsg =>
      fieldRefFromProto reg (some ls) p.1 >>= fun l =>
      fieldRefFromProto reg (some rs) p.2 >>= fun r => .ok (⟨l, r, .simple comparisonEq⟩ : JoinKey))
      lrs = .ok ks := by
  intro ks lrs hs he h
  refine mapL_exact ks lrs ?_ h
  intro k hk p hp
  simp only [Res.bind_eq_ok] at hp
  obtain ⟨l, hl, r, hr, hp⟩ := hp
  cases hp
  have hc : k.comparison = .simple comparisonEq := by
    have := List.all_eq_true.1 he k hk
    simpa using this
  obtain ⟨l', r', c⟩ := k
  simp only at hc
  subst hc
  simp only [fieldRef_exact (hs _ hk).1 hl, fieldRef_exact (hs _ hk).2.1 hr, Res.ok_bind]

theorem zip_map_fst_snd {α β} : ∀ xs : List (α × β), (xs.map Prod.fst).zip (xs.map Prod.snd) = xs
  | [] => rfl
  | x :: xs => by simp [zip_map_fst_snd xs]

theorem joinKeys_exact {reg : Reg} {ls rs : List Ty} {ks : List JoinKey} {kms : List JoinKeyMsg}
    {lr : List FieldRefMsg × List FieldRefMsg} (hs : ∀ k ∈ ks, k.Sendable reg ls rs)
    (hk : Res.mapL (JoinKey.toMsg reg) ks = .ok kms) (hl : legacyKeys reg ks = .ok lr) :
    joinKeysFromProto reg ls rs kms lr.1 lr.2 = .ok ks := by
  cases ks with
  | nil =>
    simp only [Res.mapL_nil] at hk
    cases hk
    simp [legacyKeys, allEquality] at hl
    cases hl
    simp [joinKeysFromProto]
  | cons k ks =>
    have hlen := mapL_length' _ _ hk
    have : kms.length > 0 := by rw [hlen]; simp
    simp only [joinKeysFromProto, this, if_true]
    exact mapL_exact _ _ (fun k hk m hm => joinKey_exact (hs k hk) hm) hk

theorem extDef_exact {reg : RelReg} {d : ExtDef} (h : d.Sendable reg) :
    decodeExtensionDef reg d.detail = .ok d := by
  cases d <;> simp only [ExtDef.Sendable] at h <;> simp [decodeExtensionDef, ExtDef.detail, h]

theorem setInputs_exact {primary : List Ty} : ∀ is : List Rel,
    (∀ i ∈ is, ∃ us, i.recordType = .ok us ∧ Ty.PlanTypeList us ∧
      Ty.eraseList us = Ty.eraseList primary) → setInputsSame primary is = .ok ()
  | [], _ => rfl
  | i :: is, h => by
      obtain ⟨us, h1, h2, h3⟩ := h i (by simp)
      have : recordTypeEquals us primary = .ok true := by
        rw [recordTypeEquals]
        exact (equals_true_iff (a := .struct NullabilityRequired 0 us)
          (b := .struct NullabilityRequired 0 primary) (by simpa [Ty.PlanType] using h2)).2
          (by simp [Ty.erase, h3])
      simp only [setInputsSame, h1, this, Res.ok_bind, if_true]
      exact setInputs_exact is (fun i hi => h i (by simp [hi]))

/-- Grouping references without grouping expressions are read as empty groups. -/
theorem legacyGroups_none (reg : RelReg) (base : Option (List Ty)) (refs : List (List UInt32)) :
    groupingsFromProto reg base [] (refs.map fun r => ⟨[], r⟩) =
      .ok ([], List.replicate refs.length []) := by
  have h1 : ∀ l : List (List UInt32),
      Res.mapL (fun g : GroupingMsg => Expr.fromProtoList reg.toReg base g.legacy)
        (l.map fun r => ⟨[], r⟩) = .ok (List.replicate l.length []) := by
    intro l
    induction l with
    | nil => rfl
    | cons a l ih => simp [Res.mapL_cons, Expr.fromProtoList, ih, List.replicate_succ]
  have h2 : ∀ n, groupingLoop reg.sh [] (List.replicate n ([] : List Expr)) =
      .ok ([], List.replicate n []) := by
    intro n
    induction n with
    | zero => rfl
    | succ n ih => simp [List.replicate_succ, groupingLoop, groupRefs, ih]
  simp [groupingsFromProto, h1, groupingExprs, h2]

theorem legacyGroups_empty (reg : RelReg) (base : Option (List Ty)) (refs : List (List UInt32))
    (h : ∀ g ∈ refs, g = []) :
    groupingsFromProto reg base [] (refs.map fun r => ⟨[], r⟩) = .ok ([], refs) := by
  rw [legacyGroups_none, ← List.eq_replicate_of_mem h]

theorem groupings_exact {reg : RelReg} {base : Option (List Ty)} {es : List Expr}
    {ms : List ExprMsg} {refs : List (List UInt32)} (he : es = [] → ∀ g ∈ refs, g = [])
    (hs : Expr.SendableList reg.toReg base es) (h : Expr.toProtoList reg.toReg es = .ok ms) :
    groupingsFromProto reg base ms (refs.map fun r => ⟨[], r⟩) = .ok (es, refs) := by
  cases es with
  | nil =>
    simp only [Expr.toProtoList] at h
    cases h
    exact legacyGroups_empty reg base refs (he rfl)
  | cons e es =>
    have hr := exprs_exact reg.toReg base _ _ hs h
    cases ms with
    | nil => simp [Expr.fromProtoList] at hr
    | cons m ms =>
      simp [groupingsFromProto, hr, Function.comp_def]

theorem int8_exact (t : Int8) : t.toInt32.toInt8 = t := by simp

theorem toProtoList_length (reg : Reg) : ∀ (is : List Rel) (ms : List RelMsg),
    Rel.toProtoList reg is = .ok ms → ms.length = is.length
  | [], ms, h => by simp only [Rel.toProtoList] at h; cases h; rfl
  | i :: is, ms, h => by
      simp only [Rel.toProtoList, Res.bind_eq_ok] at h
      obtain ⟨a, ha, b, hb, h⟩ := h
      cases h
      simp [toProtoList_length reg is b hb]

theorem hashJoin_recordType {c : RelCommon} {l r : Rel} {ks : List JoinKey} {p : Expr}
    {t : HashMergeJoinType} {adv : Option Nat} {ls rs : List Ty} (h1 : l.recordType = .ok ls)
    (h2 : r.recordType = .ok rs) :
    (Rel.hashJoin c l r ks p t adv).recordType = c.remap (ls ++ rs) := by
  rw [Rel.recordType] at h1 h2
  rw [Rel.recordType, Rel.directOutputSchema, h1, h2]
  rfl

theorem mergeJoin_recordType {c : RelCommon} {l r : Rel} {ks : List JoinKey} {p : Expr}
    {t : HashMergeJoinType} {adv : Option Nat} {ls rs : List Ty} (h1 : l.recordType = .ok ls)
    (h2 : r.recordType = .ok rs) :
    (Rel.mergeJoin c l r ks p t adv).recordType = c.remap (ls ++ rs) := by
  rw [Rel.recordType] at h1 h2
  rw [Rel.recordType, Rel.directOutputSchema, h1, h2]
  rfl

mutual
/-- A relation that can be carried is read back identically. -/
theorem rel_exact (reg : RelReg) : ∀ (r : Rel) (m : RelMsg), r.Sendable reg →
    r.toProto reg.toReg = .ok m → Rel.fromProto reg m = .ok r
  | .read c b k, m, hs, h => by
      simp only [Rel.Sendable] at hs
      obtain ⟨h1, h2, h3, h4, h5⟩ := hs
      simp only [Rel.toProto, Res.bind_eq_ok] at h
      obtain ⟨s, hsm, f, hf, be, hbe, k', hk, h⟩ := h
      cases h
      obtain ⟨sc, flt, bef, proj, adv⟩ := b
      simp only at h1 h2 h3 h4 hsm hf hbe
      have hp : (proj.map reg.maskTo).map reg.maskFrom = proj := by
        cases proj with
        | none => rfl
        | some p => simp [h4 p rfl]
      simp only [Rel.fromProto, readKind_exact h5 hk, common?_exact, namedStruct_exact h1 hsm,
        opt_exact h2 hf, opt_exact h3 hbe, Res.ok_bind, hp]
  | .project c i es adv, m, hs, h => by
      simp only [Rel.Sendable] at hs
      obtain ⟨h1, h2, ts, h3, h4⟩ := hs
      simp only [Rel.toProto, Res.bind_eq_ok] at h
      obtain ⟨es', hes, i', hi, h⟩ := h
      cases h
      have : es.length ≠ 0 := by simpa using h2
      simp only [Rel.fromProto, rel_exact reg i i' h1 hi, h3, exprs_exact reg.toReg _ _ _ h4 hes,
        common?_exact, Res.ok_bind, this, if_false]
  | .join c l r e p ty adv, m, hs, h => by
      simp only [Rel.Sendable] at hs
      obtain ⟨h1, h2, h3, ls, rs, h4, h5, h6, h7⟩ := hs
      simp only [Rel.toProto, Res.bind_eq_ok] at h
      obtain ⟨l', hl, r', hr, e', he, p', hp, h⟩ := h
      cases h
      simp only [Rel.fromProto, h3, if_false, rel_exact reg l l' h1 hl, rel_exact reg r r' h2 hr,
        common_exact, h4, h5, expr_exact reg.toReg _ e e' h6 he, opt_exact h7 hp, Res.ok_bind]
  | .cross c l r adv, m, hs, h => by
      simp only [Rel.Sendable] at hs
      simp only [Rel.toProto, Res.bind_eq_ok] at h
      obtain ⟨l', hl, r', hr, h⟩ := h
      cases h
      simp only [Rel.fromProto, rel_exact reg l l' hs.1 hl, rel_exact reg r r' hs.2 hr,
        common_exact, Res.ok_bind]
  | .fetch c i o n adv, m, hs, h => by
      simp only [Rel.Sendable] at hs
      simp only [Rel.toProto, Res.bind_eq_ok] at h
      obtain ⟨i', hi, h⟩ := h
      cases h
      simp only [Rel.fromProto, rel_exact reg i i' hs hi, common?_exact, Res.ok_bind]
  | .aggregate c i ms es refs adv, m, hs, h => by
      simp only [Rel.Sendable] at hs
      obtain ⟨h1, h2, ts, h3, h4, h5⟩ := hs
      simp only [Rel.toProto, Res.bind_eq_ok] at h
      obtain ⟨es', hes, ms', hms, i', hi, h⟩ := h
      cases h
      simp only [Rel.fromProto, rel_exact reg i i' h1 hi, h3, groupings_exact h2 h4 hes,
        mapL_exact ms ms' (fun x hx m hm => measure_exact (h5 x hx) hm) hms, common_exact,
        Res.ok_bind]
  | .sort c i ss adv, m, hs, h => by
      simp only [Rel.Sendable] at hs
      obtain ⟨h1, h2, ts, h3, h4⟩ := hs
      simp only [Rel.toProto, Res.bind_eq_ok] at h
      obtain ⟨ss', hss, i', hi, h⟩ := h
      cases h
      have : ss.length ≠ 0 := by simpa using h2
      simp only [Rel.fromProto, rel_exact reg i i' h1 hi, h3, sorts_exact reg.toReg _ _ _ h4 hss,
        common_exact, Res.ok_bind, this, if_false]
  | .filter c i e adv, m, hs, h => by
      simp only [Rel.Sendable] at hs
      obtain ⟨h1, ts, h3, h4⟩ := hs
      simp only [Rel.toProto, Res.bind_eq_ok] at h
      obtain ⟨i', hi, e', he, h⟩ := h
      cases h
      simp only [Rel.fromProto, rel_exact reg i i' h1 hi, h3, expr_exact reg.toReg _ e e' h4 he,
        common?_exact, Res.ok_bind]
  | .set c is op adv, m, hs, h => by
      simp only [Rel.Sendable] at hs
      obtain ⟨h1, h2, h3, ts, h4⟩ := hs
      simp only [Rel.toProto, Res.bind_eq_ok] at h
      obtain ⟨is', his, h⟩ := h
      cases h
      have hlen : ¬ is'.length < 2 := by rw [toProtoList_length _ _ _ his]; omega
      cases is with
      | nil => simp at h2
      | cons i rest =>
        obtain ⟨us, hu1, hu2, hu3⟩ := h4 i (by simp)
        have hsame : setInputsSame us rest = .ok () := by
          refine setInputs_exact rest (fun j hj => ?_)
          obtain ⟨vs, hv1, hv2, hv3⟩ := h4 j (by simp [hj])
          exact ⟨vs, hv1, hv2, by rw [hv3, hu3]⟩
        simp only [Rel.fromProto, hlen, if_false, rels_exact reg _ is' h1 his, h3, hu1, hsame,
          common_exact, Res.ok_bind]
  | .extSingle c i d, m, hs, h => by
      simp only [Rel.Sendable] at hs
      simp only [Rel.toProto, Res.bind_eq_ok] at h
      obtain ⟨i', hi, h⟩ := h
      cases h
      simp only [Rel.fromProto, rel_exact reg i i' hs.1 hi, extDef_exact hs.2, common_exact,
        Res.ok_bind]
  | .extLeaf c d, m, hs, h => by
      simp only [Rel.Sendable] at hs
      simp only [Rel.toProto] at h
      cases h
      simp only [Rel.fromProto, extDef_exact hs, common_exact, Res.ok_bind]
  | .extMulti c is d, m, hs, h => by
      simp only [Rel.Sendable] at hs
      simp only [Rel.toProto, Res.bind_eq_ok] at h
      obtain ⟨is', his, h⟩ := h
      cases h
      simp only [Rel.fromProto, rels_exact reg is is' hs.1 his, extDef_exact hs.2, common_exact,
        Res.ok_bind]
  | .hashJoin c l r ks p ty adv, m, hs, h => by
      simp only [Rel.Sendable] at hs
      obtain ⟨h1, h2, ls, rs, h4, h5, h6, h7⟩ := hs
      simp only [Rel.toProto, Res.bind_eq_ok] at h
      obtain ⟨l', hl, r', hr, kms, hk, lr, hlr, p', hp, h⟩ := h
      cases h
      simp only [Rel.fromProto, rel_exact reg l l' h1 hl, rel_exact reg r r' h2 hr,
        common_exact, h4, h5, joinKeys_exact h6 hk hlr, Res.ok_bind, int8_exact]
      rcases h7 with rfl | ⟨ts, h7, h8⟩
      · simp only [Expr.optToProto] at hp; cases hp; rfl
      · rw [optToProto_sendable h8] at hp
        simp only [toProto_not_nil hp, hashJoin_recordType h4 h5, h7,
          expr_exact reg.toReg _ p p' h8 hp, Res.ok_bind, Bool.false_eq_true, if_false]
  | .mergeJoin c l r ks p ty adv, m, hs, h => by
      simp only [Rel.Sendable] at hs
      obtain ⟨h1, h2, ls, rs, h4, h5, h6, h7⟩ := hs
      simp only [Rel.toProto, Res.bind_eq_ok] at h
      obtain ⟨l', hl, r', hr, kms, hk, lr, hlr, p', hp, h⟩ := h
      cases h
      simp only [Rel.fromProto, rel_exact reg l l' h1 hl, rel_exact reg r r' h2 hr,
        common_exact, h4, h5, joinKeys_exact h6 hk hlr, Res.ok_bind, int8_exact]
      rcases h7 with rfl | ⟨ts, h7, h8⟩
      · simp only [Expr.optToProto] at hp; cases hp; rfl
      · rw [optToProto_sendable h8] at hp
        simp only [toProto_not_nil hp, mergeJoin_recordType h4 h5, h7,
          expr_exact reg.toReg _ p p' h8 hp, Res.ok_bind, Bool.false_eq_true, if_false]
  | .write c names adv s op i mode, m, hs, h => by
      simp only [Rel.Sendable] at hs
      obtain ⟨h1, h2, h3, rfl⟩ := hs
      simp only [Rel.toProto, Res.bind_eq_ok] at h
      obtain ⟨s', hs', i', hi, h⟩ := h
      cases h
      have hop : writeOpRead op = true := by rcases h3 with rfl | rfl | rfl <;> rfl
      simp only [Rel.fromProto, rel_exact reg i i' h1 hi, namedStruct_exact h2 hs', common?_exact,
        hop, if_true, Res.ok_bind]
theorem rels_exact (reg : RelReg) : ∀ (rs : List Rel) (ms : List RelMsg), Rel.SendableList reg rs →
    Rel.toProtoList reg.toReg rs = .ok ms → Rel.fromProtoList reg ms = .ok rs
  | [], ms, _, h => by simp only [Rel.toProtoList] at h; cases h; simp only [Rel.fromProtoList]
  | r :: rs, ms, hs, h => by
      simp only [Rel.SendableList] at hs
      simp only [Rel.toProtoList, Res.bind_eq_ok] at h
      obtain ⟨a, ha, b, hb, h⟩ := h
      cases h
      simp only [Rel.fromProtoList, rel_exact reg r a hs.1 ha, rels_exact reg rs b hs.2 hb,
        Res.ok_bind]
end

end Verif

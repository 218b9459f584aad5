import Verif.Spec.PlanBuild
import Verif.Lemmas.Rel
import Verif.Lemmas.RelProto
import Verif.Lemmas.Writable
import Verif.Lemmas.Aggregate
import Verif.Lemmas.Plan
import Verif.Lemmas.LocalTypes
import Verif.Props.FieldRef
/-!
# Lemmas on plans made with the plan builder
-/

namespace Verif

theorem carriedList {reg : Reg} {base : Option (List Ty)} : ∀ {es : List Expr},
    (∀ e ∈ es, e.Carried reg base) → Expr.SendableList reg base es ∧ Expr.WritableList reg es
  | [], _ => by simp [Expr.SendableList, Expr.WritableList]
  | e :: es, h => by
      have := carriedList (es := es) fun e he => h e (by simp [he])
      exact ⟨by simp only [Expr.SendableList]; exact ⟨(h e (by simp)).1, this.1⟩,
        by simp only [Expr.WritableList]; exact ⟨(h e (by simp)).2, this.2⟩⟩

theorem carriedSorts {reg : Reg} {base : Option (List Ty)} : ∀ {ss : List ESort},
    (∀ e k, ESort.mk e k ∈ ss → e.Carried reg base ∧ k ≠ .nil) →
    ESort.SendableList reg base ss ∧ ESort.WritableList reg ss
  | [], _ => by simp [ESort.SendableList, ESort.WritableList]
  | .mk e k :: ss, h => by
      have := carriedSorts (ss := ss) fun e k he => h e k (by simp [he])
      have h0 := h e k (by simp)
      exact ⟨by simp only [ESort.SendableList]; exact ⟨h0.1.1, h0.2, this.1⟩,
        by simp only [ESort.WritableList]; exact ⟨h0.1.2, this.2⟩⟩

theorem carriedOpt {reg : Reg} {base : Option (List Ty)} {e : Expr} (h : e.CarriedOpt reg base) :
    e.NilOrSendable reg base ∧ e.WritableOpt reg := by
  rcases h with rfl | ⟨h1, h2⟩
  · exact ⟨.inl rfl, by simp [Expr.WritableOpt]⟩
  · refine ⟨.inr h1, ?_⟩
    cases e <;> first | (simp only [Expr.WritableOpt]; exact h2) | simp [Expr.WritableOpt]

theorem sendableRels {reg : RelReg} : ∀ {is : List Rel}, (∀ i ∈ is, i.Sendable reg) → Rel.SendableList reg is
  | [], _ => by simp [Rel.SendableList]
  | i :: is, h => by
      simp only [Rel.SendableList]
      exact ⟨h i (by simp), sendableRels fun i hi => h i (by simp [hi])⟩

theorem writableRels {reg : Reg} : ∀ {is : List Rel}, (∀ i ∈ is, i.Writable reg) → Rel.WritableList reg is
  | [], _ => by simp [Rel.WritableList]
  | i :: is, h => by
      simp only [Rel.WritableList]
      exact ⟨h i (by simp), writableRels fun i hi => h i (by simp [hi])⟩

theorem allInputs_some : ∀ {is : List (Option Rel)} {xs : List Rel}, allInputs is = some xs → is = xs.map some
  | [], xs, h => by simp only [allInputs, Option.some.injEq] at h; subst h; rfl
  | none :: is, xs, h => by simp [allInputs] at h
  | some i :: is, xs, h => by
      simp only [allInputs, Option.map_eq_some_iff] at h
      obtain ⟨ys, hy, rfl⟩ := h
      rw [allInputs_some hy]; rfl

theorem allInputs_map : ∀ xs : List Rel, allInputs (xs.map some) = some xs
  | [] => rfl
  | x :: xs => by simp [allInputs, allInputs_map xs]

theorem run_asks (c : BuildCall) (m : Option (List Int32)) (r : Rel) (h : c.run m = .ok r) : c.Asks m r := by
  cases c with
  | project i es =>
    cases i with
    | none => cases h
    | some i =>
      simp only [BuildCall.run, projectRemap] at h
      split at h
      · cases h
      · obtain ⟨ts, _, h⟩ := Res.bind_eq_ok.1 h
        obtain ⟨⟨⟩, _, h⟩ := Res.bind_eq_ok.1 h
        cases h
        exact ⟨_, rfl, rfl⟩
  | cross l r =>
    cases l <;> cases r <;> try cases h
    simp only [BuildCall.run, crossRemap] at h
    obtain ⟨ls, _, h⟩ := Res.bind_eq_ok.1 h
    obtain ⟨rs, _, h⟩ := Res.bind_eq_ok.1 h
    obtain ⟨⟨⟩, _, h⟩ := Res.bind_eq_ok.1 h
    cases h
    exact ⟨_, _, rfl, rfl, rfl⟩
  | fetch i o n =>
    cases i with
    | none => cases h
    | some i =>
      simp only [BuildCall.run, fetchRemap] at h
      obtain ⟨ts, _, h⟩ := Res.bind_eq_ok.1 h
      obtain ⟨⟨⟩, _, h⟩ := Res.bind_eq_ok.1 h
      cases h
      exact ⟨_, rfl, rfl⟩
  | filter i e =>
    cases i with
    | none => cases h
    | some i =>
      simp only [BuildCall.run, filterRemap] at h
      split at h
      · cases h
      · obtain ⟨b, _, h⟩ := Res.bind_eq_ok.1 h
        split at h
        · cases h
        · obtain ⟨ts, _, h⟩ := Res.bind_eq_ok.1 h
          obtain ⟨⟨⟩, _, h⟩ := Res.bind_eq_ok.1 h
          cases h
          exact ⟨_, rfl, rfl⟩
  | join l r e p t =>
    cases l <;> cases r <;> try cases h
    simp only [BuildCall.run, joinAndFilterRemap] at h
    split at h
    · cases h
    obtain ⟨b, _, h⟩ := Res.bind_eq_ok.1 h
    split at h
    · cases h
    split at h
    · cases h
    obtain ⟨b, _, h⟩ := Res.bind_eq_ok.1 h
    split at h
    · cases h
    obtain ⟨ts, _, h⟩ := Res.bind_eq_ok.1 h
    obtain ⟨⟨⟩, _, h⟩ := Res.bind_eq_ok.1 h
    cases h
    exact ⟨_, _, rfl, rfl, rfl⟩
  | sort i ss =>
    cases i with
    | none => cases h
    | some i =>
      simp only [BuildCall.run, sortRemap] at h
      obtain ⟨ts, _, h⟩ := Res.bind_eq_ok.1 h
      obtain ⟨⟨⟩, _, h⟩ := Res.bind_eq_ok.1 h
      split at h
      · cases h
      · cases h
        exact ⟨_, rfl, rfl⟩
  | set op is =>
    simp only [BuildCall.run, setRemap] at h
    split at h
    · cases h
    split at h
    · cases h
    cases ha : allInputs is with
    | none => simp [ha] at h
    | some xs =>
      simp only [ha] at h
      cases xs with
      | nil => cases h
      | cons x xs =>
        obtain ⟨ts, _, h⟩ := Res.bind_eq_ok.1 h
        obtain ⟨⟨⟩, _, h⟩ := Res.bind_eq_ok.1 h
        obtain ⟨⟨⟩, _, h⟩ := Res.bind_eq_ok.1 h
        cases h
        exact ⟨_, allInputs_some ha, rfl⟩
  | scan ns s =>
    simp only [BuildCall.run, namedScanRemap] at h
    obtain ⟨⟨⟩, _, h⟩ := Res.bind_eq_ok.1 h
    cases h
    rfl
  | virt ns rows =>
    cases rows with
    | nil => cases h
    | cons row rows =>
      simp only [BuildCall.run, virtualTableRemap] at h
      split at h
      · cases h
      rename_i hl
      obtain ⟨⟨⟩, _, h⟩ := Res.bind_eq_ok.1 h
      obtain ⟨ts, hts, h⟩ := Res.bind_eq_ok.1 h
      obtain ⟨⟨⟩, _, h⟩ := Res.bind_eq_ok.1 h
      cases h
      exact ⟨_, _, ts, rfl, by simpa using hl, mapL_forall₂.1 hts, rfl⟩
  | write i op ns s =>
    cases i with
    | none => cases h
    | some i =>
      simp only [BuildCall.run, namedWriteRemap] at h
      obtain ⟨ts, _, h⟩ := Res.bind_eq_ok.1 h
      obtain ⟨⟨⟩, _, h⟩ := Res.bind_eq_ok.1 h
      cases h
      exact ⟨_, rfl, rfl⟩
  | ctas i ns s =>
    cases i with
    | none => cases h
    | some i =>
      simp only [BuildCall.run, ctasRemap] at h
      obtain ⟨ts, _, h⟩ := Res.bind_eq_ok.1 h
      obtain ⟨⟨⟩, _, h⟩ := Res.bind_eq_ok.1 h
      cases h
      exact ⟨_, rfl, rfl⟩

theorem sameTypes_erase {us : List Ty} (hp : Ty.PlanTypeList us) : ∀ {is : List Rel},
    checkSameTypes us is = .ok () → ∀ i ∈ is, ∃ ts, i.recordType = .ok ts ∧ Ty.eraseList ts = Ty.eraseList us
  | [], _, _, hi => by simp at hi
  | i :: is, h, j, hj => by
      simp only [checkSameTypes, Res.bind_eq_ok] at h
      obtain ⟨ts, hts, b, hb, h⟩ := h
      cases b with
      | false => simp at h
      | true =>
        simp only [if_true] at h
        rcases List.mem_cons.1 hj with rfl | hj
        · refine ⟨ts, hts, ?_⟩
          rw [recordTypeEquals] at hb
          have := (equals_true_iff (a := .struct NullabilityRequired 0 us)
            (b := .struct NullabilityRequired 0 ts) (by simpa [Ty.PlanType] using hp)).1 hb
          simp only [Ty.erase, Ty.struct.injEq, true_and] at this
          exact this.symm
        · exact sameTypes_erase hp h j hj

/-- a reference to a column of the row -/
theorem rowRef_carried (reg : Reg) {ts : List Ty} {i : Int32} {e : Expr}
    (h : newFieldRef .rootReference (.seg (.structField i .nil)) (some ts) = .ok e) :
    e.Carried reg (some ts) := by
  simp only [newFieldRef, Res.bind_eq_ok] at h
  obtain ⟨t, ht, h⟩ := h
  cases h
  have hw := ((C14_getType (.structField i .nil) (.struct NullabilityRequired 0 ts)
    (by simp) (by simp [Seg.KeysTyped])).1 t).1 ht
  refine ⟨?_, ?_⟩
  · simp only [Expr.Sendable, ERoot.Sendable]
    exact ⟨trivial, by simp, by simp [Seg.KeysSendable], ⟨t, hw, rfl⟩⟩
  · simp [Expr.Writable, ERef.Writable, Seg.KeysWritable, ERoot.Writable]

theorem rootFieldRef_carried (reg : Reg) {r : Rel} {ts : List Ty} {i : Int32} {e : Expr}
    (hr : r.recordType = .ok ts) (h : rootFieldRef r i = .ok e) : e.Carried reg (some ts) := by
  simp only [rootFieldRef, hr, Res.ok_bind] at h
  split at h
  · cases h
  · exact rowRef_carried reg h

theorem joinedRef_carried (reg : Reg) {l r : Rel} {ls rs : List Ty} {i : Int32} {e : Expr}
    (hl : l.recordType = .ok ls) (hr : r.recordType = .ok rs)
    (h : joinedRecordFieldRef l r i = .ok e) : e.Carried reg (some (ls ++ rs)) := by
  simp only [joinedRecordFieldRef, hl, hr, Res.ok_bind] at h
  split at h
  · cases h
  · exact rowRef_carried reg h

theorem sortFields_carried (reg : Reg) {r : Rel} {ts : List Ty} (hr : r.recordType = .ok ts) :
    ∀ {is : List Int32} {ss : List ESort}, sortFields r is = .ok ss →
      ∀ e k, ESort.mk e k ∈ ss → e.Carried reg (some ts) ∧ k = .direction 2
  | [], ss, h, e, k, hm => by simp only [sortFields, Res.ok.injEq] at h; subst h; simp at hm
  | i :: is, ss, h, e, k, hm => by
      simp only [sortFields, Res.bind_eq_ok] at h
      obtain ⟨x, hx, xs, hxs, h⟩ := h
      simp only [Res.ok.injEq] at h
      subst h
      rcases List.mem_cons.1 hm with hm | hm
      · cases hm
        exact ⟨rootFieldRef_carried reg hr hx, rfl⟩
      · exact sortFields_carried reg hr hxs e k hm

theorem agg_carried {reg : RelReg} {b : AggBuilder} {i r : Rel} {ts : List Ty} (h : b.build = .ok r)
    (hi : b.input = some i) (hin : i.Sendable reg ∧ i.Writable reg.toReg) (hts : i.recordType = .ok ts)
    (he : ∀ x ∈ b.exprs, x.e.Carried reg.toReg (some ts))
    (hm : ∀ m ∈ b.measures, m.Carried reg.toReg (some ts)) :
    r.Sendable reg ∧ r.Writable reg.toReg := by
  simp only [AggBuilder.build, hi] at h
  split at h
  · rename_i hv
    simp only [Res.ok.injEq] at h
    subst h
    have hl := carriedList (es := b.exprs.map (·.e)) (reg := reg.toReg) (base := some ts) (by
      intro e hh
      obtain ⟨x, hx, rfl⟩ := List.mem_map.1 hh
      exact he x hx)
    refine ⟨?_, ?_⟩
    · simp only [Rel.Sendable]
      refine ⟨hin.1, ?_, ts, hts, hl.1, fun m hh => (hm m hh).1⟩
      intro h0 g hg
      have h0 : b.exprs = [] := by simpa using h0
      simp only [AggBuilder.validate, h0, Bool.and_eq_true, Bool.not_eq_true', List.any_eq_false] at hv
      have := hv.2 g hg
      cases g with
      | nil => rfl
      | cons x xs => simp at this
    · simp only [Rel.Writable]
      exact ⟨hin.2, hl.2, fun m hh => (hm m hh).2⟩
  · cases h

theorem addExpression_keeps (b : AggBuilder) (e : PExpr) :
    (b.addExpression e).1.input = b.input ∧ (b.addExpression e).1.measures = b.measures ∧
    ∀ x ∈ (b.addExpression e).1.exprs, x ∈ b.exprs ∨ x = e := by
  unfold AggBuilder.addExpression
  split
  · exact ⟨rfl, rfl, fun x h => .inl h⟩
  · exact ⟨rfl, rfl, fun x h => by simpa using h⟩

theorem addExpressions_keeps : ∀ (es : List PExpr) (b : AggBuilder),
    (addExpressions b es).1.input = b.input ∧ (addExpressions b es).1.measures = b.measures ∧
    ∀ x ∈ (addExpressions b es).1.exprs, x ∈ b.exprs ∨ x ∈ es
  | [], b => ⟨rfl, rfl, fun x h => .inl h⟩
  | e :: es, b => by
      obtain ⟨h1, h2, h3⟩ := addExpression_keeps b e
      obtain ⟨k1, k2, k3⟩ := addExpressions_keeps es (b.addExpression e).1
      refine ⟨k1.trans h1, k2.trans h2, fun x hx => ?_⟩
      rcases k3 x hx with h | h
      · rcases h3 x h with h | h
        · exact .inl h
        · exact .inr (by simp [h])
      · exact .inr (by simp [h])

theorem addGroups_keeps : ∀ (gs : List (List PExpr)) (b : AggBuilder),
    (addGroups b gs).input = b.input ∧ (addGroups b gs).measures = b.measures ∧
    ∀ x ∈ (addGroups b gs).exprs, x ∈ b.exprs ∨ ∃ g ∈ gs, x ∈ g
  | [], b => ⟨rfl, rfl, fun x h => .inl h⟩
  | g :: gs, b => by
      obtain ⟨h1, h2, h3⟩ := addExpressions_keeps g b
      obtain ⟨k1, k2, k3⟩ := addGroups_keeps gs ((addExpressions b g).1.addGroupingSet (addExpressions b g).2)
      refine ⟨k1.trans h1, k2.trans h2, fun x hx => ?_⟩
      rcases k3 x hx with h | ⟨g', hg, h⟩
      · rcases h3 x h with h | h
        · exact .inl h
        · exact .inr ⟨g, by simp, h⟩
      · exact .inr ⟨g', by simp [hg], h⟩

theorem addColumns_keeps {i : Rel} : ∀ (cs : List Int32) (b : AggBuilder) (k : Nat) (b' : AggBuilder)
    (refs : List UInt32), addColumns i b k cs = .ok (b', refs) →
    b'.input = b.input ∧ b'.measures = b.measures ∧
      ∀ x ∈ b'.exprs, x ∈ b.exprs ∨ ∃ c, rootFieldRef i c = .ok x.e
  | [], b, k, b', refs, h => by
      simp only [addColumns, Res.ok.injEq, Prod.mk.injEq] at h
      obtain ⟨rfl, rfl⟩ := h
      exact ⟨rfl, rfl, fun x h => .inl h⟩
  | c :: cs, b, k, b', refs, h => by
      simp only [addColumns, Res.bind_eq_ok] at h
      obtain ⟨e, he, ⟨b2, is⟩, hb, h⟩ := h
      simp only [Res.ok.injEq, Prod.mk.injEq] at h
      obtain ⟨rfl, rfl⟩ := h
      obtain ⟨h1, h2, h3⟩ := addExpression_keeps b ⟨k, e⟩
      obtain ⟨k1, k2, k3⟩ := addColumns_keeps cs _ _ _ _ hb
      refine ⟨k1.trans h1, k2.trans h2, fun x hx => ?_⟩
      rcases k3 x hx with h | h
      · rcases h3 x h with h | rfl
        · exact .inl h
        · exact .inr ⟨c, he⟩
      · exact .inr h

theorem call_carried {reg : RelReg} (c : BuildCall) (m : Option (List Int32)) (r : Rel) (h : c.run m = .ok r)
    (hi : ∀ x, c.Takes x → x.Sendable reg ∧ x.Writable reg.toReg) (hp : c.Carried reg) :
    r.Sendable reg ∧ r.Writable reg.toReg := by
  have ha := run_asks c m r h
  cases c with
  | project i es =>
    obtain ⟨x, rfl, rfl⟩ := ha
    obtain ⟨ts, hts, he⟩ := hp x rfl
    have hl := carriedList he
    have hx := hi x rfl
    refine ⟨?_, by simp only [Rel.Writable]; exact ⟨hx.2, hl.2⟩⟩
    simp only [Rel.Sendable]
    refine ⟨hx.1, ?_, ts, hts, hl.1⟩
    rintro rfl
    cases h
  | cross l r =>
    obtain ⟨x, y, rfl, rfl, rfl⟩ := ha
    have hx := hi x (.inl rfl)
    have hy := hi y (.inr rfl)
    exact ⟨by simp only [Rel.Sendable]; exact ⟨hx.1, hy.1⟩, by simp only [Rel.Writable]; exact ⟨hx.2, hy.2⟩⟩
  | fetch i o n =>
    obtain ⟨x, rfl, rfl⟩ := ha
    have hx := hi x rfl
    exact ⟨by simp only [Rel.Sendable]; exact hx.1, by simp only [Rel.Writable]; exact hx.2⟩
  | filter i e =>
    obtain ⟨x, rfl, rfl⟩ := ha
    obtain ⟨ts, hts, he⟩ := hp x rfl
    have hx := hi x rfl
    exact ⟨by simp only [Rel.Sendable]; exact ⟨hx.1, ts, hts, he.1⟩,
      by simp only [Rel.Writable]; exact ⟨hx.2, he.2⟩⟩
  | join a b e p t =>
    obtain ⟨x, y, rfl, rfl, rfl⟩ := ha
    obtain ⟨ls, hls, rs, hrs, he, hpo⟩ := hp x y rfl rfl
    have hx := hi x (.inl rfl)
    have hy := hi y (.inr rfl)
    have hpo := carriedOpt hpo
    refine ⟨?_, by simp only [Rel.Writable]; exact ⟨hx.2, hy.2, he.2, hpo.2⟩⟩
    simp only [Rel.Sendable]
    refine ⟨hx.1, hy.1, ?_, ls, rs, hls, hrs, he.1, hpo.1⟩
    rintro rfl
    simp only [BuildCall.run, joinAndFilterRemap] at h
    split at h
    · cases h
    obtain ⟨b, _, h⟩ := Res.bind_eq_ok.1 h
    split at h
    · cases h
    · simp at h
  | sort i ss =>
    obtain ⟨x, rfl, rfl⟩ := ha
    obtain ⟨ts, hts, he⟩ := hp x rfl
    have hl := carriedSorts he
    have hx := hi x rfl
    refine ⟨?_, by simp only [Rel.Writable]; exact ⟨hx.2, hl.2⟩⟩
    simp only [Rel.Sendable]
    refine ⟨hx.1, ?_, ts, hts, hl.1⟩
    rintro rfl
    simp [BuildCall.run, sortRemap, Res.bind_eq_ok] at h
  | set op is =>
    obtain ⟨xs, rfl, rfl⟩ := ha
    have hx : ∀ x ∈ xs, x.Sendable reg ∧ x.Writable reg.toReg := fun x hx => hi x (List.mem_map.2 ⟨x, hx, rfl⟩)
    refine ⟨?_, by simp only [Rel.Writable]; exact writableRels fun x h => (hx x h).2⟩
    simp only [BuildCall.run, setRemap, allInputs_map] at h
    split at h
    · cases h
    rename_i hop
    split at h
    · cases h
    rename_i hlen
    cases xs with
    | nil => cases h
    | cons x xs =>
      obtain ⟨us, hus, h⟩ := Res.bind_eq_ok.1 h
      obtain ⟨⟨⟩, _, h⟩ := Res.bind_eq_ok.1 h
      obtain ⟨⟨⟩, hs, h⟩ := Res.bind_eq_ok.1 h
      have hpt : ∀ y ∈ x :: xs, y.OnRows Ty.PlanTypeList := fun y hy => hp y (List.mem_map.2 ⟨y, hy, rfl⟩)
      have hpx : Ty.PlanTypeList us := by
        obtain ⟨ts, hts, hpt⟩ := hpt x (by simp)
        rw [hus] at hts
        cases hts
        exact hpt
      simp only [Rel.Sendable]
      refine ⟨sendableRels fun x h => (hx x h).1, by simpa using hlen, hop, us, ?_⟩
      intro y hy
      obtain ⟨ts, hts, hpt⟩ := hpt y hy
      refine ⟨ts, hts, hpt, ?_⟩
      rcases List.mem_cons.1 hy with rfl | hy
      · rw [hus] at hts
        cases hts
        rfl
      · obtain ⟨ts', hts', he⟩ := sameTypes_erase hpx hs y hy
        rw [hts'] at hts
        cases hts
        exact he
  | scan ns s =>
    have ha : r = _ := ha
    subst ha
    refine ⟨?_, ?_⟩
    · simp only [Rel.Sendable, ReadKind.Sendable]
      exact ⟨fun t ht => (hp t ht).1, .inl rfl, .inl rfl, by simp, trivial⟩
    · simp only [Rel.Writable, ReadKind.Writable, Expr.WritableOpt, and_true]
      exact (writableList_iff _).2 fun t ht => (hp t ht).2
  | virt ns rows =>
    obtain ⟨row, rest, ts, rfl, hl, hts, rfl⟩ := ha
    have hty : ∀ t ∈ ts, t.Carried := by
      intro t ht
      obtain ⟨e, he, h⟩ := forall₂_mem_right hts ht
      exact (hp row (by simp) e he).2 t h
    refine ⟨?_, ?_⟩
    · simp only [Rel.Sendable, ReadKind.Sendable]
      exact ⟨fun t ht => (hty t ht).1, .inl rfl, .inl rfl, by simp,
        fun row hr => (carriedList fun e he => (hp row hr e he).1).1⟩
    · simp only [Rel.Writable, ReadKind.Writable, Expr.WritableOpt, true_and]
      exact ⟨(writableList_iff _).2 fun t ht => (hty t ht).2,
        fun row hr => (carriedList fun e he => (hp row hr e he).1).2⟩
  | write i op ns s => exact hp.elim
  | ctas i ns s => exact hp.elim

theorem read_carried {reg : RelReg} {c : RelCommon} {s : NamedStruct} {k : ReadKind}
    (ht : ∀ t ∈ s.types, t.Carried) (h1 : k.Sendable reg.toReg) (h2 : k.Writable reg.toReg) :
    (Rel.read c { schema := s } k).Sendable reg ∧ (Rel.read c { schema := s } k).Writable reg.toReg := by
  refine ⟨?_, ?_⟩
  · simp only [Rel.Sendable]
    exact ⟨fun t h => (ht t h).1, .inl rfl, .inl rfl, by simp, h1⟩
  · simp only [Rel.Writable, Expr.WritableOpt, true_and]
    exact ⟨(writableList_iff _).2 fun t h => (ht t h).2, h2⟩

theorem built_carried {reg : RelReg} {r : Rel} (h : Built reg r) : r.Sendable reg ∧ r.Writable reg.toReg := by
  induction h with
  | call c m r h _ parts ih => exact call_carried c m r h ih parts
  | empty ns ts r h parts =>
    simp only [emptyVirtualTable, Res.ok.injEq] at h
    subst h
    exact read_carried parts (by simp [ReadKind.Sendable]) (by simp [ReadKind.Writable])
  | extTable d s r h parts =>
    simp only [extensionTable, Res.ok.injEq] at h
    subst h
    exact read_carried parts (by simp [ReadKind.Sendable]) (by simp [ReadKind.Writable])
  | iceberg uri sn s r h parts =>
    rcases sn with _ | _ | _ <;> simp only [icebergTable, Res.ok.injEq] at h <;> subst h <;>
      exact read_carried parts (by simp [ReadKind.Sendable]) (by simp [ReadKind.Writable])
  | extSingle i d r h _ parts ih =>
    simp only [extensionSingle, Res.ok.injEq] at h
    subst h
    exact ⟨by simp only [Rel.Sendable]; exact ⟨ih.1, parts⟩, by simp only [Rel.Writable]; exact ih.2⟩
  | extLeaf d r h parts =>
    simp only [extensionLeaf, Res.ok.injEq] at h
    subst h
    exact ⟨by simp only [Rel.Sendable]; exact parts, by simp only [Rel.Writable]⟩
  | extMulti is d r h _ parts ih =>
    simp only [extensionMulti, allInputs_map] at h
    split at h
    · cases h
    · simp only [Res.ok.injEq] at h
      subst h
      exact ⟨by simp only [Rel.Sendable]; exact ⟨sendableRels fun i hi => (ih i hi).1, parts⟩,
        by simp only [Rel.Writable]; exact writableRels fun i hi => (ih i hi).2⟩
  | aggregate b i r h hi _ parts ih =>
    obtain ⟨ts, hts, he, hm⟩ := parts
    exact agg_carried h hi ih hts he hm
  | columns i ms cols r h _ parts ih =>
    obtain ⟨ts, hts, hm⟩ := parts
    simp only [aggregateByColumns] at h
    split at h
    · obtain ⟨⟨b, refs⟩, hb, h⟩ := Res.bind_eq_ok.1 h
      obtain ⟨k1, k2, k3⟩ := addColumns_keeps cols _ _ _ _ hb
      refine agg_carried h k1 ih hts ?_ (by rw [show (b.addGroupingSet refs).measures = ms from k2]; exact hm)
      intro x hx
      rcases k3 x hx with h | ⟨c, hc⟩
      · simp at h
      · exact rootFieldRef_carried _ hts hc
    · exact agg_carried h rfl ih hts (by simp) hm
  | exprs i ms groups r h _ parts ih =>
    obtain ⟨ts, hts, he, hm⟩ := parts
    obtain ⟨k1, k2, k3⟩ := addGroups_keeps groups { input := some i, measures := ms }
    refine agg_carried h k1 ih hts ?_ (by rw [k2]; exact hm)
    intro x hx
    rcases k3 x hx with h | ⟨g, hg, h⟩
    · simp at h
    · exact he g hg x h

end Verif

import Verif.Spec.FieldRef
import Verif.Lemmas.Literals
/-!
# Properties of references and masks (C13 – C15)
-/

namespace Verif

/-! ## C13 -/

theorem segChild_roundtrip : ∀ (s : Seg) (m : PSeg), s.KeysFaithful → segChildToProto s = .ok m →
    ∃ s', segFromProto m = .ok s' ∧ s.Same s'
  | .nil, m, _, h => by cases h; exact ⟨.nil, rfl, .nil⟩
  | .mapKey k c, m, hf, h => by
    simp only [segChildToProto, Res.bind_eq_ok] at h
    obtain ⟨mc, h1, mk, h2, h3⟩ := h
    cases h3
    obtain ⟨c', a1, a2⟩ := segChild_roundtrip c mc hf.2 h1
    obtain ⟨k', b1, b2⟩ := lit_roundtrip k mk hf.1 h2
    exact ⟨.mapKey k' c', by simp [segFromProto, a1, b1], .mapKey _ _ _ _ b2.symm a2⟩
  | .structField i c, m, hf, h => by
    simp only [segChildToProto, Res.bind_eq_ok] at h
    obtain ⟨mc, h1, h3⟩ := h
    cases h3
    obtain ⟨c', a1, a2⟩ := segChild_roundtrip c mc hf h1
    exact ⟨.structField i c', by simp [segFromProto, a1], .structField _ _ _ a2⟩
  | .listElement i c, m, hf, h => by
    simp only [segChildToProto, Res.bind_eq_ok] at h
    obtain ⟨mc, h1, h3⟩ := h
    cases h3
    obtain ⟨c', a1, a2⟩ := segChild_roundtrip c mc hf h1
    exact ⟨.listElement i c', by simp [segFromProto, a1], .listElement _ _ _ a2⟩

theorem segToProto_child {s : Seg} {m : PSeg} (h : segToProto s = .ok m) :
    segChildToProto s = .ok m := by
  cases s <;> first | cases h | (simpa [segToProto, segChildToProto] using h)

/-- The full property. -/
def C13_statement : Prop :=
  ∀ (s : Seg) (m : PSeg), segToProto s = .ok m → ∃ s', segFromProto m = .ok s' ∧ s.Same s'

/-- **C13 is false of the code**, only because of map keys whose literal does not survive (C12):
a chain whose key is a precision timestamp before 1970 is read back with a nil key. -/
theorem C13_negation : ¬ C13_statement := by
  intro h
  obtain ⟨s', h1, h2⟩ :=
    h (.mapKey (.proto (.int64 (-1)) (.prec .precisionTimestamp 2 0 6)) .nil) _ rfl
  have : segFromProto (.mapKey (litHeader (.prec .precisionTimestamp 2 0 6)
      (.precisionTimestamp 6 (-1))) .nil) = .ok (.mapKey .nil .nil) := rfl
  rw [this] at h1
  cases h1
  cases h2 with
  | mapKey _ _ _ _ hk _ => simp [Lit.Same, Lit.erase] at hk

/-- **C13 (partial).** A chain of any length whose map keys are faithful literals is rebuilt with
the same steps in the same order. Missing: map keys outside `Lit.Faithful`. -/
theorem C13_segment_roundtrip_partial (s : Seg) (m : PSeg) (hf : s.KeysFaithful)
    (h : segToProto s = .ok m) : ∃ s', segFromProto m = .ok s' ∧ s.Same s' :=
  segChild_roundtrip s m hf (segToProto_child h)

theorem segChild_states : ∀ (s : Seg) (m : PSeg), segChildToProto s = .ok m → m.States s
  | .nil, m, h => by cases h; exact .nil
  | .mapKey k c, m, h => by
    simp only [segChildToProto, Res.bind_eq_ok] at h
    obtain ⟨mc, h1, mk, h2, h3⟩ := h
    cases h3
    exact .mapKey _ _ _ _ h2 (segChild_states c mc h1)
  | .structField i c, m, h => by
    simp only [segChildToProto, Res.bind_eq_ok] at h
    obtain ⟨mc, h1, h3⟩ := h
    cases h3
    exact .structField _ _ _ (segChild_states c mc h1)
  | .listElement i c, m, h => by
    simp only [segChildToProto, Res.bind_eq_ok] at h
    obtain ⟨mc, h1, h3⟩ := h
    cases h3
    exact .listElement _ _ _ (segChild_states c mc h1)

/-- The message between the two ends states the chain: kinds, field numbers, offsets and order (so
that another implementation reads the same reference). -/
theorem C13_message (s : Seg) (m : PSeg) (h : segToProto s = .ok m) : m.States s :=
  segChild_states s m (segToProto_child h)

/-- Without map keys nothing is missing. -/
theorem C13_no_keys (s : Seg) (hn : s ≠ .nil)
    (hk : ∀ st ∈ s.steps, ∀ k, st ≠ .key k) :
    ∃ m, segToProto s = .ok m ∧ segFromProto m = .ok s := by
  have key : ∀ s : Seg, (∀ st ∈ s.steps, ∀ k, st ≠ .key k) →
      ∃ m, segChildToProto s = .ok m ∧ segFromProto m = .ok s := by
    intro s
    induction s with
    | nil => intro _; exact ⟨_, rfl, rfl⟩
    | mapKey k c ih => intro h; exact absurd rfl (h (.key k) (by simp [Seg.steps]) k)
    | structField i c ih =>
      intro h
      obtain ⟨m, h1, h2⟩ := ih (fun st hst => h st (by simp [Seg.steps, hst]))
      exact ⟨.structField i m, by simp [segChildToProto, h1], by simp [segFromProto, h2]⟩
    | listElement i c ih =>
      intro h
      obtain ⟨m, h1, h2⟩ := ih (fun st hst => h st (by simp [Seg.steps, hst]))
      exact ⟨.listElement i m, by simp [segChildToProto, h1], by simp [segFromProto, h2]⟩
  obtain ⟨m, h1, h2⟩ := key s hk
  refine ⟨m, ?_, h2⟩
  cases s <;> first | exact absurd rfl hn | (simpa [segToProto, segChildToProto] using h1)

example : let s : Seg := .structField 3 (.mapKey (.prim (.int32 5) (.prim .i32 2 0))
      (.listElement (-1) .nil))
    s.KeysFaithful ∧ ∃ m, segToProto s = .ok m :=
  ⟨by simp [Seg.KeysFaithful, Lit.Faithful, PVal.Fits, Stated], _, rfl⟩

/-! ## C14 -/

theorem structField_step {f : Int32} {n v} {ts : List Ty} {t : Ty} :
    StepTo (.field f) (.struct n v ts) t ↔
      ¬ (f < 0 ∨ (ts.length : Int) ≤ f.toInt) ∧ Res.index ts f.toInt = .ok t := by
  rw [Res.index_eq_ok, Int32.lt_iff_toInt_lt]
  constructor
  · intro h
    cases h with
    | field i _ _ _ _ _ hi ht =>
      have := (List.getElem?_eq_some_iff.1 ht).1
      refine ⟨?_, ?_, ?_⟩
      · simp; omega
      · omega
      · rw [hi]; simpa using ht
  · rintro ⟨h1, h2, h3⟩
    exact .field f.toInt.toNat _ _ _ _ _ (by omega) h3

/-- **C14.** Resolving a (non-empty) chain against a type succeeds with `u` exactly when walking its
steps one at a time is legal and leads to `u`; otherwise it reports an error, and never panics. -/
theorem C14_getType (s : Seg) (t : Ty) (hn : s ≠ .nil) (hk : s.KeysTyped) :
    (∀ u, s.getType t = .ok u ↔ Walk s.steps t u) ∧ s.getType t ≠ .panic := by
  induction s generalizing t with
  | nil => exact absurd rfl hn
  | structField f c ih =>
    have hc : ∀ x u, (if c.isNil then Res.ok x else c.getType x) = .ok u ↔ Walk c.steps x u := by
      intro x u
      cases hcn : c.isNil with
      | true =>
        cases c <;> simp [Seg.isNil] at hcn
        simp only [if_true, Res.ok.injEq, Seg.steps]
        constructor
        · rintro rfl; exact .done _
        · intro h; cases h; rfl
      | false =>
        simp only [Bool.false_eq_true, if_false]
        exact (ih x (by rintro rfl; simp [Seg.isNil] at hcn) hk).1 u
    have hcp : ∀ x, (if c.isNil then Res.ok x else c.getType x) ≠ .panic := by
      intro x
      cases hcn : c.isNil with
      | true => simp
      | false =>
        simp only [Bool.false_eq_true, if_false]
        exact (ih x (by rintro rfl; simp [Seg.isNil] at hcn) hk).2
    cases t with
    | struct n v ts =>
      constructor
      · intro u
        simp only [Seg.getType, Seg.steps]
        by_cases hr : f < 0 ∨ (ts.length : Int) ≤ f.toInt
        · simp only [hr, if_true]
          constructor
          · intro h; cases h
          · intro h
            cases h with
            | step _ _ _ x _ h1 h2 => exact absurd hr (structField_step.1 h1).1
        · simp only [hr, if_false, Res.bind_eq_ok]
          constructor
          · rintro ⟨x, h1, h2⟩
            exact .step _ _ _ x _ (structField_step.2 ⟨hr, h1⟩) ((hc x u).1 h2)
          · intro h
            cases h with
            | step _ _ _ x _ h1 h2 =>
              exact ⟨x, (structField_step.1 h1).2, (hc x u).2 h2⟩
      · simp only [Seg.getType]
        by_cases hr : f < 0 ∨ (ts.length : Int) ≤ f.toInt
        · simp [hr]
        · simp only [hr, if_false]
          refine Res.bind_ne_panic ?_ (fun x _ => hcp x)
          rw [Int32.lt_iff_toInt_lt] at hr
          simp only [not_or, Int.not_lt, Int.not_le] at hr
          have h0 : 0 ≤ f.toInt := by simpa using hr.1
          have : f.toInt = (f.toInt.toNat : Int) := by omega
          rw [this, Res.index_nat ts f.toInt.toNat (by omega)]
          simp
    | _ =>
      constructor
      · intro u
        simp only [Seg.getType, Seg.steps]
        constructor
        · intro h; cases h
        · intro h
          cases h with
          | step _ _ _ x _ h1 h2 => cases h1
      · simp [Seg.getType]
  | listElement f c ih =>
    cases t with
    | list n v e =>
      constructor
      · intro u
        simp only [Seg.getType, Seg.steps]
        have hs : Walk (.element f :: c.steps) (.list n v e) u ↔ Walk c.steps e u := by
          constructor
          · intro h
            cases h with
            | step _ _ _ x _ h1 h2 => cases h1; exact h2
          · intro h; exact .step _ _ _ _ _ (.element _ _ _ _) h
        rw [hs]
        cases hcn : c.isNil with
        | true =>
          cases c <;> simp [Seg.isNil] at hcn
          simp only [if_true, Res.ok.injEq, Seg.steps]
          constructor
          · rintro rfl; exact .done _
          · intro h; cases h; rfl
        | false =>
          simp only [Bool.false_eq_true, if_false]
          exact (ih e (by rintro rfl; simp [Seg.isNil] at hcn) hk).1 u
      · simp only [Seg.getType]
        cases hcn : c.isNil with
        | true => simp
        | false =>
          simp only [Bool.false_eq_true, if_false]
          exact (ih e (by rintro rfl; simp [Seg.isNil] at hcn) hk).2
    | _ =>
      constructor
      · intro u
        simp only [Seg.getType, Seg.steps]
        constructor
        · intro h; cases h
        · intro h
          cases h with
          | step _ _ _ x _ h1 h2 => cases h1
      · simp [Seg.getType]
  | mapKey k c ih =>
    obtain ⟨⟨kt, hkt, hpt⟩, hk⟩ := hk
    cases t with
    | map n v mk mv =>
      obtain ⟨b, hb, hbs⟩ := equals_spec kt mk hpt
      constructor
      · intro u
        simp only [Seg.getType, Seg.steps, hkt, hb, Res.ok_bind]
        cases b with
        | false =>
          simp only [Bool.not_false, if_true]
          constructor
          · intro h; cases h
          · intro h
            cases h with
            | step _ _ _ x _ h1 h2 =>
              cases h1 with
              | key _ kt' _ _ _ _ hk' hs =>
                rw [hkt] at hk'; cases hk'
                exact absurd (hbs.2 hs) (by simp)
        | true =>
          simp only [Bool.not_true, Bool.false_eq_true, if_false]
          have hs : Walk (.key k :: c.steps) (.map n v mk mv) u ↔ Walk c.steps mv u := by
            constructor
            · intro h
              cases h with
              | step _ _ _ x _ h1 h2 => cases h1; exact h2
            · intro h
              exact .step _ _ _ _ _ (.key _ _ _ _ _ _ hkt (hbs.1 rfl)) h
          rw [hs]
          cases hcn : c.isNil with
          | true =>
            cases c <;> simp [Seg.isNil] at hcn
            simp only [if_true, Res.ok.injEq, Seg.steps]
            constructor
            · rintro rfl; exact .done _
            · intro h; cases h; rfl
          | false =>
            simp only [Bool.false_eq_true, if_false]
            exact (ih mv (by rintro rfl; simp [Seg.isNil] at hcn) hk).1 u
      · simp only [Seg.getType, hkt, hb, Res.ok_bind]
        cases b with
        | false => simp
        | true =>
          simp only [Bool.not_true, Bool.false_eq_true, if_false]
          cases hcn : c.isNil with
          | true => simp
          | false =>
            simp only [Bool.false_eq_true, if_false]
            exact (ih mv (by rintro rfl; simp [Seg.isNil] at hcn) hk).2
    | _ =>
      constructor
      · intro u
        simp only [Seg.getType, Seg.steps]
        constructor
        · intro h; cases h
        · intro h
          cases h with
          | step _ _ _ x _ h1 h2 => cases h1
      · simp [Seg.getType]

/-- `struct{i32, map<string, list<i64>>}`, field 1, key "a", element 0 resolves to i64; a negative
field number is rejected. -/
example : let t : Ty := .struct 2 0 [.prim .i32 2 0, .map 2 0 (.prim .string 2 0)
      (.list 2 0 (.prim .i64 1 0))]
    let s : Seg := .structField 1 (.mapKey (.prim (.string [97]) (.prim .string 2 0))
      (.listElement 0 .nil))
    s.KeysTyped ∧ s.getType t = .ok (.prim .i64 1 0) ∧ (Seg.structField (-1) .nil).getType t = .err
    := by
  refine ⟨⟨⟨_, rfl, by simp [Ty.PlanType]⟩, trivial⟩, ?_, by simp [Seg.getType]⟩
  simp [Seg.getType, Lit.getType, Ty.equals, Seg.isNil, Res.index]

/-! ## C15 -/

mutual
theorem mask_select_roundtrip : ∀ (p : PMSelect), p.Complete →
    ∃ m, maskSelectFromProto p = .ok m ∧ m ≠ .nil ∧ maskSelectToProto m = .ok p
  | .nil, h => h.elim
  | .unset, h => h.elim
  | .struct items, h => by
    obtain ⟨is, h1, h2⟩ := mask_items_roundtrip items h
    exact ⟨.struct is, by simp [maskSelectFromProto, h1], by simp, by simp [maskSelectToProto, h2]⟩
  | .list sel child, h => by
    simp only [PMSelect.Complete] at h
    obtain ⟨c, h1, _, h2⟩ := mask_select_roundtrip child h.2
    refine ⟨.list (sel.map listItemFromProto) c, by simp [maskSelectFromProto, h1], by simp, ?_⟩
    have hl : ∀ sel : List PMListItem, (∀ i ∈ sel, i ≠ .unset) →
        Res.mapL listItemToProto (sel.map listItemFromProto) = .ok sel := by
      intro sel
      induction sel with
      | nil => intro _; rfl
      | cons i is ih =>
        intro hi
        have h1 := hi i (by simp)
        have h2 := ih (fun j hj => hi j (by simp [hj]))
        cases i <;> first | exact absurd rfl h1 | simp [listItemFromProto, listItemToProto, h2]
    simp [maskSelectToProto, hl sel h.1, h2]
  | .map key child, h => by
    simp only [PMSelect.Complete] at h
    obtain ⟨c, h1, h3, h2⟩ := mask_select_roundtrip child h.2
    have hc : maskChildFromProto child = .ok c := by
      cases child <;> simp [PMSelect.Complete] at h <;>
        simpa [maskChildFromProto, maskSelectFromProto] using h1
    refine ⟨.map (mapKeyFromProto key).1 (mapKeyFromProto key).2 c,
      by simp [maskSelectFromProto, hc], by simp, ?_⟩
    have : mapKeyToProto (mapKeyFromProto key).1 (mapKeyFromProto key).2 = key := by
      cases key <;> first | exact absurd rfl h.1 | rfl
    simp [maskSelectToProto, h2, this]
theorem mask_items_roundtrip : ∀ (p : List PMItem), PMItem.CompleteList p →
    ∃ m, maskItemsFromProto p = .ok m ∧ maskItemsToProto m = .ok p
  | [], _ => ⟨[], rfl, rfl⟩
  | .mk f c :: is, h => by
    simp only [PMItem.CompleteList] at h
    obtain ⟨is', h1, h2⟩ := mask_items_roundtrip is h.2
    rcases h.1 with hc | hc
    · subst hc
      exact ⟨.mk f .nil :: is', by simp [maskItemsFromProto, maskChildFromProto, h1],
        by simp [maskItemsToProto, maskChildToProto, h2]⟩
    · obtain ⟨c', a1, a2, a3⟩ := mask_select_roundtrip c hc
      have hc1 : maskChildFromProto c = .ok c' := by
        cases c <;> simp [PMSelect.Complete] at hc <;>
          simpa [maskChildFromProto, maskSelectFromProto] using a1
      have hc2 : maskChildToProto c' = .ok c := by
        cases c' <;> first
          | exact absurd rfl a2
          | simpa [maskChildToProto, maskSelectToProto] using a3
      exact ⟨.mk f c' :: is', by simp [maskItemsFromProto, hc1, h1],
        by simp [maskItemsToProto, hc2, h2]⟩
end

mutual
theorem mask_select_states : ∀ (p : PMSelect) (m : MSelect), p.Complete →
    maskSelectFromProto p = .ok m → p.States m
  | .nil, _, h, _ => h.elim
  | .unset, _, h, _ => h.elim
  | .struct items, m, h, hm => by
    simp only [maskSelectFromProto, Res.bind_eq_ok] at hm
    obtain ⟨is, h1, h2⟩ := hm
    cases h2
    exact .struct _ _ (mask_items_states items is h h1)
  | .list sel child, m, h, hm => by
    simp only [maskSelectFromProto, Res.bind_eq_ok] at hm
    obtain ⟨c, h1, h2⟩ := hm
    cases h2
    simp only [PMSelect.Complete] at h
    refine .list _ _ _ _ ?_ (mask_select_states child c h.2 h1)
    have hs := h.1
    clear h h1
    induction sel with
    | nil => exact .nil
    | cons i is ih =>
      refine .cons ?_ (ih (fun j hj => hs j (by simp [hj])))
      have h1 := hs i (by simp)
      cases i with
      | unset => exact absurd rfl h1
      | item f => exact .item f
      | slice s e => exact .slice s e
  | .map key child, m, h, hm => by
    simp only [maskSelectFromProto, Res.bind_eq_ok] at hm
    obtain ⟨c, h1, h2⟩ := hm
    cases h2
    simp only [PMSelect.Complete] at h
    have hc : maskSelectFromProto child = .ok c := by
      cases child <;> simp [PMSelect.Complete] at h <;>
        simpa [maskChildFromProto, maskSelectFromProto] using h1
    have ih := mask_select_states child c h.2 hc
    cases key with
    | unset => exact absurd rfl h.1
    | key k => exact .key _ _ _ ih
    | expression k => exact .expression _ _ _ ih
theorem mask_items_states : ∀ (p : List PMItem) (m : List MItem), PMItem.CompleteList p →
    maskItemsFromProto p = .ok m → PMItem.StatesList p m
  | [], m, _, hm => by cases hm; exact .nil
  | .mk f c :: is, m, h, hm => by
    simp only [maskItemsFromProto, Res.bind_eq_ok] at hm
    obtain ⟨c', h1, is', h2, h3⟩ := hm
    cases h3
    simp only [PMItem.CompleteList] at h
    refine .cons _ _ _ _ _ ?_ (mask_items_states is is' h.2 h2)
    rcases h.1 with hc | hc
    · subst hc; cases h1; exact .nil
    · refine mask_select_states c c' hc ?_
      cases c <;> simp [PMSelect.Complete] at hc <;>
        simpa [maskChildFromProto, maskSelectFromProto] using h1
end

/-- The full property: every mask message with a selection is read and written back unchanged. -/
def C15_statement : Prop :=
  ∀ (items : List PMItem) (s : Bool),
    ∃ m, maskFromProto ⟨some items, s⟩ = .ok m ∧ maskToProto m = .ok ⟨some items, s⟩

/-- **C15 is false of the code**: a map selection without a child (select the key, keep the whole
value) is read, but writing it panics. -/
theorem C15_negation : ¬ C15_statement := by
  intro h
  obtain ⟨m, h1, h2⟩ := h [.mk 0 (.map (.key "k") .nil)] false
  have : maskFromProto ⟨some [.mk 0 (.map (.key "k") .nil)], false⟩ =
      .ok ⟨[.mk 0 (.map false "k" .nil)], false⟩ := rfl
  rw [this] at h1
  cases h1
  cases h2

/-- A list selection without a child cannot even be read. -/
theorem C15_negation_list (sel : List PMListItem) (s : Bool) :
    maskFromProto ⟨some [.mk 0 (.list sel .nil)], s⟩ = .panic := rfl

/-- **C15 (partial).** A mask message in which list and map selections have children and items and
keys are set is read without panic and written back identically. Missing: childless list/map
selections and unset items (shown to fail above). -/
theorem C15_mask_roundtrip_partial (items : List PMItem) (s : Bool)
    (h : PMItem.CompleteList items) :
    ∃ m, maskFromProto ⟨some items, s⟩ = .ok m ∧ m.maintainSingular = s ∧
      maskToProto m = .ok ⟨some items, s⟩ := by
  obtain ⟨m, h1, h2⟩ := mask_items_roundtrip items h
  exact ⟨⟨m, s⟩, by simp [maskFromProto, h1], rfl, by simp [maskToProto, h2]⟩

/-- What the accessors of the mask read from such a message report is what the message says. -/
theorem C15_accessors (items : List PMItem) (s : Bool) (h : PMItem.CompleteList items) (m : Mask)
    (hm : maskFromProto ⟨some items, s⟩ = .ok m) : PMItem.StatesList items m.sel := by
  simp only [maskFromProto, Res.bind_eq_ok] at hm
  obtain ⟨is, h1, h2⟩ := hm
  cases h2
  exact mask_items_states items is h h1

example : PMItem.CompleteList [.mk 3 .nil, .mk 1 (.list [.item 0, .slice 2 5]
    (.map (.expression "x*") (.struct [.mk 0 .nil])))] := by
  simp [PMItem.CompleteList, PMSelect.Complete]

end Verif

import Verif.Spec.Value
import Verif.Props.Expr
import Verif.Props.FieldRef
/-!
# Lemmas about values and types
-/

namespace Verif

theorem isNullable_same {t u : Ty} (h : t.Same u) : t.IsNullable ↔ u.IsNullable := by
  have e : t.nullability = u.nullability := by
    cases t <;> cases u <;> simp only [Ty.Same, Ty.erase, reduceCtorEq, Ty.prim.injEq, Ty.fixed.injEq,
      Ty.decimal.injEq, Ty.prec.injEq, Ty.intervalCompound.injEq, Ty.intervalYearToMonth.injEq,
      Ty.enum.injEq, Ty.struct.injEq, Ty.func.injEq, Ty.list.injEq, Ty.map.injEq, Ty.udt.injEq] at h <;>
      simp [Ty.nullability, h]
  unfold Ty.IsNullable
  rw [e]

theorem same_sameKind {t u : Ty} (h : t.Same u) : t.SameKind u := by
  cases t <;> cases u <;> simp only [Ty.Same, Ty.erase, reduceCtorEq, Ty.prim.injEq, Ty.fixed.injEq,
      Ty.decimal.injEq, Ty.prec.injEq, Ty.intervalCompound.injEq, Ty.intervalYearToMonth.injEq,
      Ty.enum.injEq, Ty.struct.injEq, Ty.func.injEq, Ty.list.injEq, Ty.map.injEq, Ty.udt.injEq] at h <;>
    simp [Ty.SameKind, Ty.Same, Ty.withNullability, Ty.erase, h]

theorem sameKind_trans' {a b c : Ty} (h : a.SameKind b) (h' : b.SameKind c) : a.SameKind c :=
  Eq.trans h h'

mutual
/-- belonging to a type does not depend on its representation -/
theorem inType_same : ∀ (v : Val) {t u : Ty}, v.InType t → t.Same u → v.InType u
  | .null, t, u, h, hs => by
    simp only [Val.InType] at h ⊢
    exact (isNullable_same hs).1 h
  | .bool b, t, u, h, hs => by
    cases t <;> simp only [Val.InType] at h
    cases u <;> simp only [Ty.Same, Ty.erase, reduceCtorEq, Ty.prim.injEq] at hs
    obtain ⟨rfl, rfl, rfl⟩ := hs
    exact h
  | .simple w c, t, u, h, hs => by
    simp only [Val.InType] at h ⊢
    exact ⟨h.1, sameKind_trans' h.2 (same_sameKind hs)⟩
  | .struct fs, t, u, h, hs => by
    cases t <;> simp only [Val.InType] at h
    cases u <;> simp only [Ty.Same, Ty.erase, reduceCtorEq, Ty.struct.injEq] at hs
    simp only [Val.InType]
    exact inTypes_same fs h hs.2.2
  | .list vs, t, u, h, hs => by
    cases t <;> simp only [Val.InType] at h
    cases u <;> simp only [Ty.Same, Ty.erase, reduceCtorEq, Ty.list.injEq] at hs
    simp only [Val.InType]
    exact allIn_same vs h hs.2.2
  | .map ks vs, t, u, h, hs => by
    cases t <;> simp only [Val.InType] at h
    cases u <;> simp only [Ty.Same, Ty.erase, reduceCtorEq, Ty.map.injEq] at hs
    simp only [Val.InType]
    exact ⟨h.1, allIn_same ks h.2.1 hs.2.2.1, allIn_same vs h.2.2 hs.2.2.2⟩
  | .closure, t, u, h, hs => by
    cases t <;> simp only [Val.InType] at h
    cases u <;> simp only [Ty.Same, Ty.erase, reduceCtorEq] at hs
    simp only [Val.InType]
theorem inTypes_same : ∀ (vs : List Val) {ts us : List Ty}, Val.InTypes vs ts →
    Ty.eraseList ts = Ty.eraseList us → Val.InTypes vs us
  | [], [], [], _, _ => by simp [Val.InTypes]
  | [], [], _ :: _, _, hs => by simp [Ty.eraseList] at hs
  | [], _ :: _, _, h, _ => by simp [Val.InTypes] at h
  | _ :: _, [], _, h, _ => by simp [Val.InTypes] at h
  | _ :: _, _ :: _, [], _, hs => by simp [Ty.eraseList] at hs
  | v :: vs, t :: ts, u :: us, h, hs => by
    simp only [Ty.eraseList, List.cons.injEq] at hs
    simp only [Val.InTypes] at h ⊢
    exact ⟨inType_same v h.1 hs.1, inTypes_same vs h.2 hs.2⟩
theorem allIn_same : ∀ (vs : List Val) {t u : Ty}, Val.AllIn vs t → t.Same u → Val.AllIn vs u
  | [], _, _, _, _ => by simp [Val.AllIn]
  | v :: vs, t, u, h, hs => by
    simp only [Val.AllIn] at h ⊢
    exact ⟨inType_same v h.1 hs, allIn_same vs h.2 hs⟩
end

/-- for values other than null nullability does not matter -/
theorem inType_withNullability {v : Val} (hv : v ≠ .null) (t : Ty) (n : Nullability) :
    v.InType (t.withNullability n) ↔ v.InType t := by
  cases v with
  | null => exact absurd rfl hv
  | bool b =>
    cases t with
    | prim k m w => cases k <;> simp [Ty.withNullability, Val.InType]
    | _ => simp [Ty.withNullability, Val.InType]
  | simple u c =>
    simp only [Val.InType]
    constructor
    · rintro ⟨h1, h2⟩
      exact ⟨h1, sameKind_trans' h2 (withNullability_sameKind t n)⟩
    · rintro ⟨h1, h2⟩
      exact ⟨h1, sameKind_trans' h2 (Eq.symm (withNullability_sameKind t n))⟩
  | struct fs => cases t <;> simp [Ty.withNullability, Val.InType]
  | list fs => cases t <;> simp [Ty.withNullability, Val.InType]
  | map ks vs => cases t <;> simp [Ty.withNullability, Val.InType]
  | closure => cases t <;> simp [Ty.withNullability, Val.InType]

/-- a value stays in a type of the same kind that is nullable if the first is -/
theorem inType_of_sameKind {t u : Ty} {v : Val} (h : v.InType t) (hs : t.SameKind u)
    (hn : t.IsNullable → u.IsNullable) : v.InType u := by
  by_cases hv : v = .null
  · subst hv
    simp only [Val.InType] at h ⊢
    exact hn h
  · exact (inType_withNullability hv u _).1
      (inType_same v ((inType_withNullability hv t NullabilityUnspecified).2 h) hs)

theorem ne_null_of_inType {v : Val} {t : Ty} (h : v.InType t) (ht : ¬ t.IsNullable) :
    v ≠ .null := by
  rintro rfl
  simp only [Val.InType] at h
  exact ht h

theorem allIn_mem : ∀ {vs : List Val} {t : Ty}, Val.AllIn vs t → ∀ v ∈ vs, v.InType t
  | [], _, _, v, hv => by cases hv
  | x :: xs, t, h, v, hv => by
    simp only [Val.AllIn] at h
    rcases List.mem_cons.1 hv with rfl | hv
    · exact h.1
    · exact allIn_mem h.2 v hv

theorem inTypes_get : ∀ {vs : List Val} {ts : List Ty} (i : Nat) {v : Val} {t : Ty},
    Val.InTypes vs ts → vs[i]? = some v → ts[i]? = some t → v.InType t
  | [], _, i, v, t, _, hv, _ => by simp at hv
  | _ :: _, [], _, _, _, h, _, _ => by simp [Val.InTypes] at h
  | x :: xs, u :: us, 0, v, t, h, hv, ht => by
    simp only [List.getElem?_cons_zero, Option.some.injEq] at hv ht
    subst hv ht
    simp only [Val.InTypes] at h
    exact h.1
  | x :: xs, u :: us, i + 1, v, t, h, hv, ht => by
    simp only [List.getElem?_cons_succ] at hv ht
    simp only [Val.InTypes] at h
    exact inTypes_get i h.2 hv ht

theorem inTypes_not_null : ∀ {vs : List Val} {ts : List Ty}, Val.InTypes vs ts →
    (∀ t ∈ ts, ¬ t.IsNullable) → Val.null ∉ vs
  | [], _, _, _ => by simp
  | _ :: _, [], h, _ => by simp [Val.InTypes] at h
  | x :: xs, u :: us, h, hn => by
    simp only [Val.InTypes] at h
    simp only [List.mem_cons, not_or]
    exact ⟨(ne_null_of_inType h.1 (hn u (by simp))).symm,
      inTypes_not_null h.2 fun t ht => hn t (List.mem_cons_of_mem _ ht)⟩

theorem step_unique {s : Step} {t u u' : Ty} (h1 : StepTo s t u) (h1' : StepTo s t u') :
    u = u' := by
  cases h1 with
  | field i f n v ts t hi ht =>
    cases h1' with
    | field i' f' n' v' ts' t' hi' ht' =>
      have : i = i' := by omega
      subst this
      rw [ht] at ht'
      exact Option.some.inj ht'
  | element => cases h1'; rfl
  | key => cases h1'; rfl

theorem firm_unique {ss : List Step} {T t t' : Ty} (hf : FirmWalk ss T t') (hw : Walk ss T t) :
    t' = t := by
  induction hw with
  | done t => cases hf; rfl
  | step s ss t u w h1 h2 ih =>
    cases hf with
    | step _ _ _ u' _ hn h1' h2' =>
      rw [← step_unique h1 h1'] at h2'
      exact ih h2'

/-- following a path along the types -/
theorem reach_inType {code : Lit → Nat} {ss : List Step} {T t : Ty} (hw : Walk ss T t) :
    ∀ {x v : Val}, x.InType T → Reach code ss x v → (t.IsNullable ∨ FirmWalk ss T t) →
      v.InType t := by
  induction hw with
  | done t =>
    intro x v hx hr _
    cases hr
    exact hx
  | step s ss t u w h1 h2 ih =>
    intro x v hx hr hn
    have hn' : w.IsNullable ∨ FirmWalk ss u w := by
      rcases hn with hn | hn
      · exact .inl hn
      · right
        cases hn with
        | step _ _ _ u' _ hn h1' h2' =>
          rw [step_unique h1 h1']; exact h2'
    cases hr with
    | null =>
      rcases hn with hn | hn
      · simp only [Val.InType]
        exact hn
      · cases hn with
        | step _ _ _ _ _ hn _ _ =>
          simp only [Val.InType] at hx
          exact absurd hx hn
    | field f i fs y ss v hi hy h =>
      cases h1 with
      | field i' f' n vv ts t' hi' ht' =>
        have : i' = i := by omega
        subst this
        simp only [Val.InType] at hx
        exact ih (inTypes_get i' hx hy ht') h hn'
    | element o i xs y ss v hi hy h =>
      cases h1
      simp only [Val.InType] at hx
      exact ih (allIn_mem hx y (List.mem_of_getElem? hy)) h hn'
    | key k kv i ks xs y ss v hk hi hy h =>
      cases h1
      simp only [Val.InType] at hx
      exact ih (allIn_mem hx.2.2 y (List.mem_of_getElem? hy)) h hn'

/-- without null on either side `IN` is true or false -/
theorem among_bool {a : List Val} {rows : List (List Val)} {r : Val} (h : Among a rows r)
    (ha : Val.null ∉ a) (hr : ∀ b ∈ rows, Val.null ∉ b) : ∃ b, r = .bool b := by
  rcases h with ⟨-, rfl⟩ | ⟨-, rfl⟩ | ⟨h1, h2, -⟩
  · exact ⟨_, rfl⟩
  · exact ⟨_, rfl⟩
  · exfalso
    apply h2
    intro b hb
    by_contra hne
    apply h1
    refine ⟨b, hb, ?_, ha⟩
    unfold RowNe at hne
    push Not at hne
    obtain ⟨hl, hne⟩ := hne
    apply List.ext_getElem? 
    intro i
    by_cases hi : i < a.length
    · have hi' : i < b.length := by omega
      rw [List.getElem?_eq_getElem hi, List.getElem?_eq_getElem hi']
      congr 1
      apply hne i _ _ (List.getElem?_eq_getElem hi) (List.getElem?_eq_getElem hi')
      · intro h; exact ha (h ▸ List.getElem_mem hi)
      · intro h; exact hr b hb (h ▸ List.getElem_mem hi')
    · rw [List.getElem?_eq_none (by omega), List.getElem?_eq_none (by omega)]

theorem compared_bool {w : World} {red op : Int32} {a : Val} {col : List Val} {r : Val}
    (h : w.Compared red op a col r) (ha : a ≠ .null) (hc : ∀ b ∈ col, b ≠ .null) :
    ∃ b, r = .bool b := by
  rcases h with ⟨-, h⟩ | ⟨-, h⟩
  · rcases h with ⟨-, rfl⟩ | ⟨-, rfl⟩ | ⟨h1, h2, -⟩
    · exact ⟨_, rfl⟩
    · exact ⟨_, rfl⟩
    · exact absurd (fun b hb => ⟨ha, hc b hb, fun hh => h1 ⟨b, hb, ha, hc b hb, hh⟩⟩) h2
  · rcases h with ⟨-, rfl⟩ | ⟨-, rfl⟩ | ⟨h1, h2, -⟩
    · exact ⟨_, rfl⟩
    · exact ⟨_, rfl⟩
    · exact absurd (fun b hb => ⟨ha, hc b hb, by_contra fun hh => h1 ⟨b, hb, ha, hc b hb, hh⟩⟩) h2

/-! ## Literals -/

theorem leaf_inType (t : Ty) (n : Nat) (h : t.Leaf) :
    (Val.simple (t.withNullability NullabilityRequired) n).InType t := by
  simp only [Val.InType]
  refine ⟨?_, withNullability_sameKind t _⟩
  cases t with
  | prim k m w => cases k <;> simp_all [Ty.Leaf, Ty.withNullability]
  | _ => simp_all [Ty.Leaf, Ty.withNullability]

theorem inTypes_map_same {vs : List Val} {ts us : List Ty} (h : Val.InTypes vs us)
    (he : Ty.eraseList ts = Ty.eraseList us) : Val.InTypes vs ts := inTypes_same vs h he.symm

mutual
theorem lit_value_inType (code : Lit → Nat) : ∀ (l : Lit), l.Coherent → ∀ v,
    Lit.denote code l = some v → ∃ t, l.getType = .ok t ∧ v.InType t
  | .nil, h, _, _ => by simp [Lit.Coherent] at h
  | .null t, h, v, hv => by
    simp only [Lit.denote, Option.some.injEq] at hv
    subst hv
    simp only [Lit.Coherent] at h
    exact ⟨t, rfl, by simpa [Val.InType] using h⟩
  | .prim p t, h, v, hv => by
    refine ⟨t, rfl, ?_⟩
    cases p with
    | bool b =>
      simp only [Lit.Coherent] at h
      obtain ⟨n, u, rfl⟩ := h
      simp only [Lit.denote, Option.some.injEq] at hv
      subst hv
      simp [Val.InType]
    | _ =>
      simp only [Lit.Coherent] at h
      simp only [Lit.denote, Option.some.injEq] at hv
      subst hv
      exact leaf_inType t _ h
  | .bytes k b t, h, v, hv => by
    simp only [Lit.Coherent] at h
    simp only [Lit.denote, Option.some.injEq] at hv
    subst hv
    exact ⟨t, rfl, leaf_inType t _ h⟩
  | .proto p t, h, v, hv => by
    simp only [Lit.Coherent] at h
    simp only [Lit.denote, Option.some.injEq] at hv
    subst hv
    exact ⟨t, rfl, leaf_inType t _ h⟩
  | .intervalYearToMonth y m n, h, v, hv => by
    simp only [Lit.denote, Option.some.injEq] at hv
    subst hv
    exact ⟨_, rfl, leaf_inType (.intervalYearToMonth n 0) _ trivial⟩
  | .intervalCompound y m d s ss p n, h, v, hv => by
    simp only [Lit.denote, Option.some.injEq] at hv
    subst hv
    exact ⟨_, rfl, leaf_inType (.intervalCompound false n 0 p) _ trivial⟩
  | .struct fs t, h, v, hv => by
    simp only [Lit.Coherent] at h
    obtain ⟨hfs, n, vv, ts, us, rfl, hus, he⟩ := h
    simp only [Lit.denote, Option.map_eq_some_iff] at hv
    obtain ⟨vs, hvs, rfl⟩ := hv
    refine ⟨_, rfl, ?_⟩
    simp only [Val.InType]
    exact inTypes_map_same (lit_values_inTypes code fs hfs vs us hvs hus) he
  | .list xs t, h, v, hv => by
    simp only [Lit.Coherent] at h
    obtain ⟨hxs, n, vv, e, rfl, hall⟩ := h
    simp only [Lit.denote, Option.map_eq_some_iff] at hv
    obtain ⟨vs, hvs, rfl⟩ := hv
    refine ⟨_, rfl, ?_⟩
    simp only [Val.InType]
    exact lit_values_allIn code xs hxs vs e hvs hall
  | .map kvs t, h, v, hv => by
    simp only [Lit.Coherent] at h
    obtain ⟨hxs, n, vv, k, e, rfl, hall⟩ := h
    simp only [Lit.denote, Option.map_eq_some_iff] at hv
    obtain ⟨⟨ks, vs⟩, hvs, rfl⟩ := hv
    refine ⟨_, rfl, ?_⟩
    simp only [Val.InType]
    exact kv_values_allIn code kvs hxs ks vs k e hvs hall
theorem lit_values_inTypes (code : Lit → Nat) : ∀ (ls : List Lit), Lit.CoherentList ls → ∀ vs us,
    Lit.denoteList code ls = some vs → ls.map Lit.getType = us.map Res.ok → Val.InTypes vs us
  | [], _, vs, us, hv, hu => by
    simp only [Lit.denoteList, Option.some.injEq] at hv
    subst hv
    cases us <;> simp [Val.InTypes] at hu ⊢
  | l :: ls, h, vs, us, hv, hu => by
    simp only [Lit.CoherentList] at h
    simp only [Lit.denoteList, Option.bind_eq_some_iff, Option.map_eq_some_iff] at hv
    obtain ⟨x, hx, xs, hxs, rfl⟩ := hv
    cases us with
    | nil => simp at hu
    | cons u us =>
      simp only [List.map_cons, List.cons.injEq] at hu
      obtain ⟨t, ht, hin⟩ := lit_value_inType code l h.1 x hx
      rw [hu.1] at ht
      injection ht with ht
      subst ht
      simp only [Val.InTypes]
      exact ⟨hin, lit_values_inTypes code ls h.2 xs us hxs hu.2⟩
theorem lit_values_allIn (code : Lit → Nat) : ∀ (ls : List Lit), Lit.CoherentList ls → ∀ vs e,
    Lit.denoteList code ls = some vs → (∀ x ∈ ls, ∃ u, x.getType = .ok u ∧ u.Same e) →
    Val.AllIn vs e
  | [], _, vs, e, hv, hu => by
    simp only [Lit.denoteList, Option.some.injEq] at hv
    subst hv
    simp [Val.AllIn]
  | l :: ls, h, vs, e, hv, hu => by
    simp only [Lit.CoherentList] at h
    simp only [Lit.denoteList, Option.bind_eq_some_iff, Option.map_eq_some_iff] at hv
    obtain ⟨x, hx, xs, hxs, rfl⟩ := hv
    obtain ⟨t, ht, hin⟩ := lit_value_inType code l h.1 x hx
    obtain ⟨u, hu1, hu2⟩ := hu l (by simp)
    rw [hu1] at ht
    injection ht with ht
    subst ht
    simp only [Val.AllIn]
    exact ⟨inType_same x hin hu2,
      lit_values_allIn code ls h.2 xs e hxs fun y hy => hu y (List.mem_cons_of_mem _ hy)⟩
theorem kv_values_allIn (code : Lit → Nat) : ∀ (kvs : List KeyValue), KeyValue.CoherentList kvs →
    ∀ ks vs k e, KeyValue.denoteList code kvs = some (ks, vs) →
    (∀ x y, KeyValue.mk x y ∈ kvs → ∃ u u', x.getType = .ok u ∧ y.getType = .ok u' ∧ u.Same k ∧
      u'.Same e) → ks.length = vs.length ∧ Val.AllIn ks k ∧ Val.AllIn vs e
  | [], _, ks, vs, k, e, hv, hu => by
    simp only [KeyValue.denoteList, Option.some.injEq, Prod.mk.injEq] at hv
    obtain ⟨rfl, rfl⟩ := hv
    simp [Val.AllIn]
  | .mk a b :: kvs, h, ks, vs, k, e, hv, hu => by
    simp only [KeyValue.CoherentList] at h
    simp only [KeyValue.denoteList, Option.bind_eq_some_iff, Option.map_eq_some_iff,
      Prod.mk.injEq] at hv
    obtain ⟨x, hx, y, hy, ⟨ks', vs'⟩, hxs, rfl, rfl⟩ := hv
    obtain ⟨t, ht, hin⟩ := lit_value_inType code a h.1 x hx
    obtain ⟨t', ht', hin'⟩ := lit_value_inType code b h.2.1 y hy
    obtain ⟨u, u', hu1, hu1', hu2, hu2'⟩ := hu a b (by simp)
    rw [hu1] at ht
    rw [hu1'] at ht'
    injection ht with ht
    injection ht' with ht'
    subst ht ht'
    obtain ⟨i1, i2, i3⟩ := kv_values_allIn code kvs h.2.2 ks' vs' k e hxs
      fun x y hm => hu x y (List.mem_cons_of_mem _ hm)
    simp only [Val.AllIn, List.length_cons]
    exact ⟨by omega, ⟨inType_same x hin hu2, i2⟩, inType_same y hin' hu2', i3⟩
end

/-! ## Expressions -/

theorem pairs_types_cons {a b : Expr} {ps : List EPair} {t : Ty}
    (h : ∀ x y, EPair.mk x y ∈ EPair.mk a b :: ps → ∃ u, y.getType = .ok u ∧ u.Same t) :
    (∃ u, b.getType = .ok u ∧ u.Same t) ∧
      ∀ x y, EPair.mk x y ∈ ps → ∃ u, y.getType = .ok u ∧ u.Same t :=
  ⟨h a b (by simp), fun x y hm => h x y (List.mem_cons_of_mem _ hm)⟩

mutual
theorem yields_inType (w : World) (s : Shape) (hw : w.Fits s) : ∀ (e : Expr), e.Checked s →
    e.Careful s → ∀ v, e.Yields w v → ∃ t, e.getType = .ok t ∧ v.InType t
  | .nil, h, _, _, _ => by simp [Expr.Checked] at h
  | .lit l, h, _, v, hv => by
    simp only [Expr.Checked] at h
    simp only [Expr.Yields] at hv
    exact lit_value_inType w.code l h v hv
  | .fieldRef root ref known, h, hc, v, hv => by
    simp only [Expr.Checked] at h
    simp only [Expr.Careful] at hc
    obtain ⟨hroot, p, T, t, rfl, hT, rfl, hwalk⟩ := h
    simp only [Expr.Yields] at hv
    obtain ⟨x, hx, hr⟩ := hv
    have hin := root_inType w s hw root hroot hc.1 T hT x hx
    refine ⟨t, rfl, reach_inType hwalk hin hr ?_⟩
    rcases hc.2 with ⟨t', ht', hn⟩ | ⟨p', T', t', hp, hT', hf⟩
    · injection ht' with ht'; subst ht'; exact .inl hn
    · right
      injection hp with hp
      subst hp
      have : T' = T := by
        cases root <;> simp only [ERoot.HasType] at hT hT'
        · rw [hT, hT']
        · rw [hT, hT']
        · rw [hT, hT']
        · rw [hT] at hT'; injection hT' with hT'; exact hT'.symm
      subst this
      have : t' = t := firm_unique hf hwalk
      subst this
      exact hf
  | .ifThen ifs els, h, hc, v, hv => by
    simp only [Expr.Checked] at h
    simp only [Expr.Careful] at hc
    obtain ⟨h1, h2, t, ht, hs⟩ := h
    refine ⟨t, by simpa [Expr.getType] using ht, ?_⟩
    simp only [Expr.Yields] at hv
    rcases hv with hv | ⟨-, hv⟩
    · exact pairs_first w s hw ifs t h2 hc.2 hs v hv
    · obtain ⟨t', ht', hin⟩ := yields_inType w s hw els h1 hc.1 v hv
      rw [ht] at ht'
      injection ht' with ht'
      subst ht'
      exact hin
  | .cast ty e fail, h, hc, v, hv => by
    simp only [Expr.Checked] at h
    simp only [Expr.Careful] at hc
    simp only [Expr.Yields] at hv
    refine ⟨ty, rfl, ?_⟩
    obtain ⟨x, hx, hv⟩ := hv
    rcases hc with hn | ⟨hce, ⟨t, ht, htn⟩, hf⟩
    · rcases hv with ⟨-, rfl⟩ | ⟨-, ⟨-, hv⟩ | ⟨-, rfl⟩⟩
      · simpa [Val.InType] using hn
      · exact hv
      · simpa [Val.InType] using hn
    · rcases hv with ⟨rfl, rfl⟩ | ⟨-, ⟨-, hv⟩ | ⟨hf', rfl⟩⟩
      · obtain ⟨t', ht', hin⟩ := yields_inType w s hw e h hce _ hx
        rw [ht] at ht'
        injection ht' with ht'
        subst ht'
        exact absurd rfl (ne_null_of_inType hin htn)
      · exact hv
      · exact absurd hf' hf
  | .dynParam ty r, _, _, v, hv => ⟨ty, rfl, by simpa [Expr.Yields] using hv⟩
  | .switch m cases els, h, hc, v, hv => by
    simp only [Expr.Checked] at h
    simp only [Expr.Careful] at hc
    obtain ⟨hne, h1, h2, k, hk, hek⟩ := h
    obtain ⟨t, ht, htk, hti⟩ := C19_switch_type m els cases k hne hk hek
    refine ⟨t, ht, ?_⟩
    simp only [Expr.Yields] at hv
    obtain ⟨x, -, hv⟩ := hv
    rcases hv with hv | ⟨-, hv | ⟨hn, rfl⟩⟩
    · obtain ⟨c, hmem, u, hu, hin⟩ := cases_first w s hw x cases h1 hc.1 v hv
      obtain ⟨u', hu', huk⟩ := hk c hmem
      rw [hu] at hu'
      injection hu' with hu'
      subst hu'
      exact inType_of_sameKind hin (sameKind_trans' huk (Eq.symm htk))
        fun hn => hti.2 (.inr (.inl ⟨c, hmem, u, hu, hn⟩))
    · rcases h2 with hn | h2
      · rw [expr_isNil_iff] at hn
        subst hn
        simp [Expr.Yields] at hv
      · obtain ⟨u, hu, hin⟩ := yields_inType w s hw els h2 hc.2 v hv
        rcases hek with hn | ⟨u', hu', huk⟩
        · rw [expr_isNil_iff] at hn
          subst hn
          simp [Expr.Yields] at hv
        · rw [hu] at hu'
          injection hu' with hu'
          subst hu'
          exact inType_of_sameKind hin (sameKind_trans' huk (Eq.symm htk))
            fun hn => hti.2 (.inr (.inr ⟨u, hu, hn⟩))
    · simp only [Val.InType]
      exact hti.2 (.inl hn)
  | .singularOr e os, h, hc, v, hv => by
    simp only [Expr.Checked] at h
    simp only [Expr.Careful] at hc
    simp only [Expr.Yields] at hv
    obtain ⟨x, xs, hx, hxs, ha⟩ := hv
    have h1 : x ≠ .null := by
      obtain ⟨t, ht, hin⟩ := yields_inType w s hw e h.1 hc.1.1 x hx
      obtain ⟨t', ht', hn⟩ := hc.1.2
      rw [ht] at ht'
      injection ht' with ht'
      subst ht'
      exact ne_null_of_inType hin hn
    have h2 := list_not_null w s hw os h.2 hc.2 xs hxs
    obtain ⟨b, rfl⟩ := among_bool ha (by simpa using h1.symm) (by
      intro b hb
      obtain ⟨y, hy, rfl⟩ := List.mem_map.1 hb
      simp only [List.mem_singleton]
      rintro rfl
      exact h2 hy)
    exact ⟨_, rfl, by simp [Val.InType]⟩
  | .multiOr es os, h, hc, v, hv => by
    simp only [Expr.Checked] at h
    simp only [Expr.Careful] at hc
    simp only [Expr.Yields] at hv
    obtain ⟨xs, yss, hxs, hys, ha⟩ := hv
    obtain ⟨b, rfl⟩ := among_bool ha (list_not_null w s hw es h.1 hc.1 xs hxs)
      (rows_not_null w s hw os h.2 hc.2 yss hys)
    exact ⟨_, rfl, by simp [Val.InType]⟩
  | .mapE n vv kvs, h, hc, v, hv => by
    simp only [Expr.Checked] at h
    simp only [Expr.Careful] at hc
    simp only [Expr.Yields] at hv
    obtain ⟨ks, vs, hy, rfl⟩ := hv
    obtain ⟨hne, h⟩ := h
    obtain ⟨hc, k, e, hs⟩ := hc
    obtain ⟨i1, i2, i3⟩ := pairs_all w s hw kvs h hc k e hs ks vs hy
    cases kvs with
    | nil => exact absurd rfl hne
    | cons p ps =>
      obtain ⟨a, b⟩ := p
      obtain ⟨u, u', hu, hu', hs1, hs2⟩ := hs a b (by simp)
      refine ⟨.map (getNullability n) vv u u', by simp [Expr.getType, hu, hu'], ?_⟩
      simp only [Val.InType]
      exact ⟨i1, allIn_same ks i2 (Eq.symm hs1), allIn_same vs i3 (Eq.symm hs2)⟩
  | .structE n vv fs, h, hc, v, hv => by
    simp only [Expr.Checked] at h
    simp only [Expr.Careful] at hc
    simp only [Expr.Yields] at hv
    obtain ⟨vs, hy, rfl⟩ := hv
    obtain ⟨ts, hts, hin⟩ := list_inTypes w s hw fs h hc vs hy
    exact ⟨.struct (getNullability n) vv ts, by simp [Expr.getType, hts], by
      simpa [Val.InType] using hin⟩
  | .listE n vv es, h, hc, v, hv => by
    simp only [Expr.Checked] at h
    simp only [Expr.Careful] at hc
    simp only [Expr.Yields] at hv
    obtain ⟨vs, hy, rfl⟩ := hv
    obtain ⟨hc, t, hs⟩ := hc
    have hin := list_allIn w s hw es h.2 hc t hs vs hy
    cases es with
    | nil => exact absurd rfl h.1
    | cons e es =>
      obtain ⟨u, hu, hus⟩ := hs e (by simp)
      refine ⟨.list (getNullability n) vv u, by simp [Expr.getType, hu], ?_⟩
      simp only [Val.InType]
      exact allIn_same vs hin (Eq.symm hus)
  | .scalar a args, _, _, v, hv => ⟨_, rfl, by simpa [Expr.Yields] using hv⟩
  | .window a wa args sorts parts, _, _, v, hv => ⟨_, rfl, by simpa [Expr.Yields] using hv⟩
  | .lambda n vv ps body, h, _, v, hv => by
    simp only [Expr.Checked] at h
    obtain ⟨t, ht⟩ := h
    simp only [Expr.Yields] at hv
    subst hv
    exact ⟨.func NullabilityRequired ps t, by simp [Expr.getType, ht], by simp [Val.InType]⟩
  | .scalarSubquery r, h, hc, v, hv => by
    simp only [Expr.Checked] at h
    simp only [Expr.Careful] at hc
    simp only [Expr.Yields] at hv
    obtain ⟨t, ht⟩ := h
    refine ⟨t, by simp [Expr.getType, ht], ?_⟩
    rcases hv with ⟨-, rfl⟩ | hv
    · rw [ht] at hc
      simpa [Val.InType] using hc
    · have := hw.rows r [v] (by simp [hv])
      rw [ht] at this
      simp only [Val.InTypes] at this
      exact this.1
  | .inPredicate es r, h, hc, v, hv => by
    simp only [Expr.Checked] at h
    simp only [Expr.Careful] at hc
    simp only [Expr.Yields] at hv
    obtain ⟨xs, hxs, ha⟩ := hv
    obtain ⟨b, rfl⟩ := among_bool ha (list_not_null w s hw es h hc.1 xs hxs)
      (fun b hb => inTypes_not_null (hw.rows r b hb) hc.2)
    exact ⟨_, rfl, by simp [Val.InType]⟩
  | .setPredicate op r, _, _, v, hv => by
    simp only [Expr.Yields] at hv
    obtain ⟨b, rfl, -⟩ := hv
    exact ⟨_, rfl, by simp [Val.InType]⟩
  | .setComparison red op l right, h, hc, v, hv => by
    simp only [Expr.Checked] at h
    simp only [Expr.Careful] at hc
    cases right with
    | none => simp [Expr.Yields] at hv
    | some r =>
      simp only [Expr.Yields] at hv
      obtain ⟨x, col, hx, hr, hcmp⟩ := hv
      have h1 : x ≠ .null := by
        obtain ⟨t, ht, hin⟩ := yields_inType w s hw l h hc.1.1 x hx
        obtain ⟨t', ht', hn⟩ := hc.1.2
        rw [ht] at ht'
        injection ht' with ht'
        subst ht'
        exact ne_null_of_inType hin hn
      obtain ⟨b, rfl⟩ := compared_bool hcmp h1 (by
        rintro b hb rfl
        have := inTypes_not_null (hw.rows r [.null] (by
          rw [hr]; exact List.mem_map.2 ⟨_, hb, rfl⟩)) (hc.2 r rfl)
        simp at this)
      exact ⟨_, rfl, by simp [Val.InType]⟩
theorem root_inType (w : World) (s : Shape) (hw : w.Fits s) : ∀ (r : ERoot), r.Checked s →
    r.Careful s → ∀ T, r.HasType s T → ∀ x, r.Yields w x → x.InType T
  | .rootReference, _, _, T, hT, x, hx => by
    simp only [ERoot.HasType] at hT
    simp only [ERoot.Yields] at hx
    subst hT hx
    exact hw.row
  | .outer n, _, _, T, hT, x, hx => by
    simp only [ERoot.HasType] at hT
    simp only [ERoot.Yields] at hx
    subst hT hx
    exact hw.outer n
  | .lambdaParam n, _, _, T, hT, x, hx => by
    simp only [ERoot.HasType] at hT
    simp only [ERoot.Yields] at hx
    subst hT hx
    exact hw.lam n
  | .expr e, h, hc, T, hT, x, hx => by
    simp only [ERoot.Checked] at h
    simp only [ERoot.Careful] at hc
    simp only [ERoot.HasType] at hT
    simp only [ERoot.Yields] at hx
    obtain ⟨t, ht, hin⟩ := yields_inType w s hw e h hc x hx
    rw [hT] at ht
    injection ht with ht
    subst ht
    exact hin
theorem list_inTypes (w : World) (s : Shape) (hw : w.Fits s) : ∀ (es : List Expr),
    Expr.CheckedList s es → EPlain.CarefulList s es → ∀ vs, Expr.YieldsList w es vs →
    ∃ ts, Expr.getTypes es = .ok ts ∧ Val.InTypes vs ts
  | [], _, _, vs, hv => by
    simp only [Expr.YieldsList] at hv
    subst hv
    exact ⟨[], rfl, by simp [Val.InTypes]⟩
  | e :: es, h, hc, vs, hv => by
    simp only [Expr.CheckedList] at h
    simp only [EPlain.CarefulList] at hc
    simp only [Expr.YieldsList] at hv
    obtain ⟨x, xs, rfl, hx, hxs⟩ := hv
    obtain ⟨t, ht, hin⟩ := yields_inType w s hw e h.1 hc.1 x hx
    obtain ⟨ts, hts, hins⟩ := list_inTypes w s hw es h.2 hc.2 xs hxs
    exact ⟨t :: ts, by simp [Expr.getTypes, ht, hts], by
      simp only [Val.InTypes]; exact ⟨hin, hins⟩⟩
theorem list_allIn (w : World) (s : Shape) (hw : w.Fits s) : ∀ (es : List Expr),
    Expr.CheckedList s es → EPlain.CarefulList s es → ∀ t,
    (∀ e ∈ es, ∃ u, e.getType = .ok u ∧ u.Same t) → ∀ vs, Expr.YieldsList w es vs →
    Val.AllIn vs t
  | [], _, _, t, _, vs, hv => by
    simp only [Expr.YieldsList] at hv
    subst hv
    simp [Val.AllIn]
  | e :: es, h, hc, t, hs, vs, hv => by
    simp only [Expr.CheckedList] at h
    simp only [EPlain.CarefulList] at hc
    simp only [Expr.YieldsList] at hv
    obtain ⟨x, xs, rfl, hx, hxs⟩ := hv
    obtain ⟨u, hu, hin⟩ := yields_inType w s hw e h.1 hc.1 x hx
    obtain ⟨u', hu', hus⟩ := hs e (by simp)
    rw [hu] at hu'
    injection hu' with hu'
    subst hu'
    simp only [Val.AllIn]
    exact ⟨inType_same x hin hus,
      list_allIn w s hw es h.2 hc.2 t (fun y hy => hs y (List.mem_cons_of_mem _ hy)) xs hxs⟩
theorem list_not_null (w : World) (s : Shape) (hw : w.Fits s) : ∀ (es : List Expr),
    Expr.CheckedList s es → Expr.CarefulList s es → ∀ vs, Expr.YieldsList w es vs →
    Val.null ∉ vs
  | [], _, _, vs, hv => by
    simp only [Expr.YieldsList] at hv
    subst hv
    simp
  | e :: es, h, hc, vs, hv => by
    simp only [Expr.CheckedList] at h
    simp only [Expr.CarefulList] at hc
    simp only [Expr.YieldsList] at hv
    obtain ⟨x, xs, rfl, hx, hxs⟩ := hv
    obtain ⟨u, hu, hin⟩ := yields_inType w s hw e h.1 hc.1.1 x hx
    obtain ⟨u', hu', hn⟩ := hc.1.2
    rw [hu] at hu'
    injection hu' with hu'
    subst hu'
    simp only [List.mem_cons, not_or]
    exact ⟨(ne_null_of_inType hin hn).symm, list_not_null w s hw es h.2 hc.2 xs hxs⟩
theorem rows_not_null (w : World) (s : Shape) (hw : w.Fits s) : ∀ (rs : List ERow),
    ERow.CheckedList s rs → ERow.CarefulList s rs → ∀ vss, ERow.YieldsList w rs vss →
    ∀ b ∈ vss, Val.null ∉ b
  | [], _, _, vs, hv => by
    simp only [ERow.YieldsList] at hv
    subst hv
    simp
  | .mk es :: rs, h, hc, vss, hv => by
    simp only [ERow.CheckedList] at h
    simp only [ERow.CarefulList] at hc
    simp only [ERow.YieldsList] at hv
    obtain ⟨x, xs, rfl, hx, hxs⟩ := hv
    intro b hb
    rcases List.mem_cons.1 hb with rfl | hb
    · exact list_not_null w s hw es h.1 hc.1 _ hx
    · exact rows_not_null w s hw rs h.2 hc.2 xs hxs b hb
theorem pairs_first (w : World) (s : Shape) (hw : w.Fits s) : ∀ (ps : List EPair) (t : Ty),
    EPair.CheckedResults s ps → EPair.CarefulResults s ps →
    (∀ a b, EPair.mk a b ∈ ps → ∃ u, b.getType = .ok u ∧ u.Same t) →
    ∀ v, EPair.YieldsFirst w ps v → v.InType t
  | [], _, _, _, _, v, hv => by simp [EPair.YieldsFirst] at hv
  | .mk a b :: ps, t, h, hc, hs, v, hv => by
    simp only [EPair.CheckedResults] at h
    simp only [EPair.CarefulResults] at hc
    simp only [EPair.YieldsFirst] at hv
    obtain ⟨⟨u, hu, hus⟩, hs'⟩ := pairs_types_cons hs
    rcases hv with ⟨-, hv⟩ | ⟨-, hv⟩
    · obtain ⟨u', hu', hin⟩ := yields_inType w s hw b h.1 hc.1 v hv
      rw [hu] at hu'
      injection hu' with hu'
      subst hu'
      exact inType_same v hin hus
    · exact pairs_first w s hw ps t h.2 hc.2 hs' v hv
theorem pairs_all (w : World) (s : Shape) (hw : w.Fits s) : ∀ (ps : List EPair),
    EPair.CheckedAll s ps → EPair.CarefulAll s ps → ∀ (k e : Ty),
    (∀ a b, EPair.mk a b ∈ ps → ∃ u u', a.getType = .ok u ∧ b.getType = .ok u' ∧ u.Same k ∧
      u'.Same e) → ∀ ks vs, EPair.YieldsAll w ps ks vs →
    ks.length = vs.length ∧ Val.AllIn ks k ∧ Val.AllIn vs e
  | [], _, _, _, _, _, ks, vs, hv => by
    simp only [EPair.YieldsAll] at hv
    obtain ⟨rfl, rfl⟩ := hv
    simp [Val.AllIn]
  | .mk a b :: ps, h, hc, k, e, hs, ks, vs, hv => by
    simp only [EPair.CheckedAll] at h
    simp only [EPair.CarefulAll] at hc
    simp only [EPair.YieldsAll] at hv
    obtain ⟨x, ks', y, vs', rfl, rfl, hx, hy, hr⟩ := hv
    obtain ⟨u, u', hu, hu', hs1, hs2⟩ := hs a b (by simp)
    obtain ⟨t, ht, hin⟩ := yields_inType w s hw a h.1 hc.1 x hx
    obtain ⟨t', ht', hin'⟩ := yields_inType w s hw b h.2.1 hc.2.1 y hy
    rw [hu] at ht
    rw [hu'] at ht'
    injection ht with ht
    injection ht' with ht'
    subst ht ht'
    obtain ⟨i1, i2, i3⟩ := pairs_all w s hw ps h.2.2 hc.2.2 k e
      (fun x y hm => hs x y (List.mem_cons_of_mem _ hm)) ks' vs' hr
    simp only [Val.AllIn, List.length_cons]
    exact ⟨by omega, ⟨inType_same x hin hs1, i2⟩, inType_same y hin' hs2, i3⟩
theorem cases_first (w : World) (s : Shape) (hw : w.Fits s) (x : Val) : ∀ (cs : List ECase),
    ECase.CheckedResults s cs → ECase.CarefulResults s cs → ∀ v, ECase.YieldsFirst w x cs v →
    ∃ c ∈ cs, ∃ u, c.result.getType = .ok u ∧ v.InType u
  | [], _, _, v, hv => by simp [ECase.YieldsFirst] at hv
  | .mk l e :: cs, h, hc, v, hv => by
    simp only [ECase.CheckedResults] at h
    simp only [ECase.CarefulResults] at hc
    simp only [ECase.YieldsFirst] at hv
    rcases hv with ⟨-, hv⟩ | ⟨-, hv⟩
    · obtain ⟨u, hu, hin⟩ := yields_inType w s hw e h.1 hc.1 v hv
      exact ⟨.mk l e, by simp, u, hu, hin⟩
    · obtain ⟨c, hm, r⟩ := cases_first w s hw x cs h.2 hc.2 v hv
      exact ⟨c, List.mem_cons_of_mem _ hm, r⟩
end

theorem lit_typed_type : ∀ (l : Lit), l.Coherent → ∃ t, l.getType = .ok t := by
  intro l h
  cases l <;> first | exact ⟨_, rfl⟩ | simp [Lit.Coherent] at h

mutual
theorem checked_type (s : Shape) : ∀ (e : Expr), e.Checked s → ∃ t, e.getType = .ok t
  | .nil, h => by simp [Expr.Checked] at h
  | .lit l, h => by
    simp only [Expr.Checked] at h
    exact lit_typed_type l h
  | .fieldRef root ref known, h => by
    simp only [Expr.Checked] at h
    obtain ⟨-, p, T, t, rfl, hT, rfl, hwalk⟩ := h
    exact ⟨t, rfl⟩
  | .ifThen ifs els, h => by
    simp only [Expr.Checked] at h
    obtain ⟨-, -, t, ht, -⟩ := h
    exact ⟨t, by simpa [Expr.getType] using ht⟩
  | .cast ty e fail, h => ⟨ty, rfl⟩
  | .dynParam ty r, _ => ⟨ty, rfl⟩
  | .switch m cases els, h => by
    simp only [Expr.Checked] at h
    obtain ⟨hne, -, -, k, hk, hek⟩ := h
    obtain ⟨t, ht, -⟩ := C19_switch_type m els cases k hne hk hek
    exact ⟨t, ht⟩
  | .singularOr e os, _ => ⟨_, rfl⟩
  | .multiOr es os, _ => ⟨_, rfl⟩
  | .mapE n vv [], h => by simp [Expr.Checked] at h
  | .mapE n vv (.mk a b :: ps), h => by
    simp only [Expr.Checked, EPair.CheckedAll] at h
    obtain ⟨t, ht⟩ := checked_type s a h.2.1
    obtain ⟨t', ht'⟩ := checked_type s b h.2.2.1
    exact ⟨_, by simp only [Expr.getType, ht, ht', Res.ok_bind]; rfl⟩
  | .structE n vv fs, h => by
    simp only [Expr.Checked] at h
    obtain ⟨ts, hts⟩ := checked_types s fs h
    exact ⟨_, by simp only [Expr.getType, hts, Res.ok_bind]; rfl⟩
  | .listE n vv [], h => by simp [Expr.Checked] at h
  | .listE n vv (e :: es), h => by
    simp only [Expr.Checked, Expr.CheckedList] at h
    obtain ⟨t, ht⟩ := checked_type s e h.2.1
    exact ⟨_, by simp only [Expr.getType, ht, Res.ok_bind]; rfl⟩
  | .scalar a args, _ => ⟨_, rfl⟩
  | .window a wa args sorts parts, _ => ⟨_, rfl⟩
  | .lambda n vv ps body, h => by
    simp only [Expr.Checked] at h
    obtain ⟨t, ht⟩ := h
    exact ⟨_, by simp only [Expr.getType, ht, Res.ok_bind]; rfl⟩
  | .scalarSubquery r, h => by
    simp only [Expr.Checked] at h
    obtain ⟨t, ht⟩ := h
    exact ⟨t, by simp [Expr.getType, ht]⟩
  | .inPredicate es r, _ => ⟨_, rfl⟩
  | .setPredicate op r, _ => ⟨_, rfl⟩
  | .setComparison red op l right, _ => ⟨_, rfl⟩
theorem checked_types (s : Shape) : ∀ (es : List Expr), Expr.CheckedList s es →
    ∃ ts, Expr.getTypes es = .ok ts
  | [], _ => ⟨[], rfl⟩
  | e :: es, h => by
    simp only [Expr.CheckedList] at h
    obtain ⟨t, ht⟩ := checked_type s e h.1
    obtain ⟨ts, hts⟩ := checked_types s es h.2
    exact ⟨t :: ts, by simp [Expr.getTypes, ht, hts]⟩
end

theorem checkedResults_iff (s : Shape) : ∀ ps : List EPair,
    EPair.CheckedResults s ps ↔ ∀ p ∈ ps, p.result.Checked s
  | [] => by simp [EPair.CheckedResults]
  | .mk a b :: ps => by
    simp only [EPair.CheckedResults, List.forall_mem_cons, EPair.result, checkedResults_iff s ps]

theorem carefulResults_iff (s : Shape) : ∀ ps : List EPair,
    EPair.CarefulResults s ps ↔ ∀ p ∈ ps, p.result.Careful s
  | [] => by simp [EPair.CarefulResults]
  | .mk a b :: ps => by
    simp only [EPair.CarefulResults, List.forall_mem_cons, EPair.result, carefulResults_iff s ps]

theorem checkedCases_iff (s : Shape) : ∀ ps : List ECase,
    ECase.CheckedResults s ps ↔ ∀ p ∈ ps, p.result.Checked s
  | [] => by simp [ECase.CheckedResults]
  | .mk a b :: ps => by
    simp only [ECase.CheckedResults, List.forall_mem_cons, ECase.result, checkedCases_iff s ps]

theorem carefulCases_iff (s : Shape) : ∀ ps : List ECase,
    ECase.CarefulResults s ps ↔ ∀ p ∈ ps, p.result.Careful s
  | [] => by simp [ECase.CarefulResults]
  | .mk a b :: ps => by
    simp only [ECase.CarefulResults, List.forall_mem_cons, ECase.result, carefulCases_iff s ps]

end Verif

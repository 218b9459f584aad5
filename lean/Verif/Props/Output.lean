import Verif.Spec.Output
import Verif.Props.Rel
import Verif.Props.Aggregate
import Verif.Lemmas.PlanBuild
import Verif.Lemmas.NoPanic
/-!
# C119: the record type of a relation is the one the specification prescribes
-/

namespace Verif

theorem nullableOf_self {t : Ty} (hp : t.PlanType) : NullableOf t t ↔ t.nullability = NullabilityNullable := by
  constructor
  · exact fun h => h.1
  · intro h
    refine ⟨h, ?_⟩
    cases t <;> simp_all [Ty.withNullability, Ty.nullability, Ty.Same, Ty.erase, Ty.PlanType]

theorem nullableCols_self {ts : List Ty} (hp : ∀ t ∈ ts, t.PlanType) :
    NullableCols ts ts ↔ ∀ t ∈ ts, t.nullability = NullabilityNullable := by
  unfold NullableCols
  rw [List.forall₂_same]
  exact forall₂_congr fun t ht => nullableOf_self (hp t ht)

theorem nullableCols_length {a b : List Ty} (h : NullableCols a b) : a.length = b.length := h.length_eq

/-- When a join of the given type is meant to put out exactly all columns of both inputs. -/
theorem keepsAll_iff (t : HashMergeJoinType) (ls rs : List Ty) (hl : ∀ c ∈ ls, c.PlanType)
    (hr : ∀ c ∈ rs, c.PlanType) : JoinColumns t.asJoin ls rs (ls ++ rs) ↔ t.KeepsAll ls rs := by
  have both : (∃ l' r', NullableCols ls l' ∧ NullableCols rs r' ∧ ls ++ rs = l' ++ r') ↔
      (∀ c ∈ ls, c.nullability = NullabilityNullable) ∧ ∀ c ∈ rs, c.nullability = NullabilityNullable := by
    constructor
    · rintro ⟨l', r', a, b, e⟩
      obtain ⟨e1, e2⟩ := List.append_inj e (nullableCols_length a)
      subst e1 e2
      exact ⟨(nullableCols_self hl).1 a, (nullableCols_self hr).1 b⟩
    · exact fun h => ⟨_, _, (nullableCols_self hl).2 h.1, (nullableCols_self hr).2 h.2, rfl⟩
  have right : (∃ r', NullableCols rs r' ∧ ls ++ rs = ls ++ r') ↔
      ∀ c ∈ rs, c.nullability = NullabilityNullable := by
    constructor
    · rintro ⟨r', b, e⟩
      obtain rfl := List.append_cancel_left e
      exact (nullableCols_self hr).1 b
    · exact fun h => ⟨_, (nullableCols_self hr).2 h, rfl⟩
  have left : (∃ l', NullableCols ls l' ∧ ls ++ rs = l' ++ rs) ↔
      ∀ c ∈ ls, c.nullability = NullabilityNullable := by
    constructor
    · rintro ⟨l', b, e⟩
      obtain rfl := List.append_cancel_right e
      exact (nullableCols_self hl).1 b
    · exact fun h => ⟨_, (nullableCols_self hl).2 h, rfl⟩
  by_cases h1 : t = 1
  · subst h1; simp [HashMergeJoinType.asJoin, HashMergeJoinType.KeepsAll, JoinColumns]
  by_cases h2 : t = 2
  · subst h2
    rw [show HashMergeJoinType.asJoin 2 = .outer from rfl]
    refine both.trans ?_
    simp [HashMergeJoinType.KeepsAll]
  by_cases h3 : t = 3
  · subst h3
    rw [show HashMergeJoinType.asJoin 3 = .left from rfl]
    refine right.trans ?_
    simp [HashMergeJoinType.KeepsAll]
  by_cases h4 : t = 4
  · subst h4
    rw [show HashMergeJoinType.asJoin 4 = .right from rfl]
    refine left.trans ?_
    simp [HashMergeJoinType.KeepsAll]
  by_cases h5 : t = 5
  · subst h5; simp [HashMergeJoinType.asJoin, HashMergeJoinType.KeepsAll, JoinColumns]
  by_cases h6 : t = 6
  · subst h6; simp [HashMergeJoinType.asJoin, HashMergeJoinType.KeepsAll, JoinColumns]
  by_cases h7 : t = 7
  · subst h7; simp [HashMergeJoinType.asJoin, HashMergeJoinType.KeepsAll, JoinColumns]
  by_cases h8 : t = 8
  · subst h8; simp [HashMergeJoinType.asJoin, HashMergeJoinType.KeepsAll, JoinColumns]
  simp [HashMergeJoinType.asJoin, HashMergeJoinType.KeepsAll, JoinColumns, h1, h2, h3, h4, h5, h6, h7, h8]

theorem forall₂_getElem?_types {es : List Expr} {us : List Ty} (h : List.Forall₂ (fun (e : Expr) u => e.getType = .ok u) es us) :
    us.length = es.length ∧ ∀ (k : Nat) (e : Expr) (u : Ty), es[k]? = some e → us[k]? = some u → e.getType = .ok u := by
  refine ⟨h.length_eq.symm, ?_⟩
  induction h with
  | nil => simp
  | cons h _ ih =>
    intro k e u he hu
    cases k with
    | zero => simp at he hu; subst he hu; exact h
    | succ k => exact ih k e u (by simpa using he) (by simpa using hu)

/-- The columns of an aggregate with at most one grouping set that lists all expressions in order. -/
theorem aggregate_plain {ms : List Measure} {es : List Expr} {sets : List (List UInt32)} {cols : List Ty}
    (hs : sets.length ≤ 1) (hr : sets.flatten.map UInt32.toNat = List.range es.length)
    (h : aggregateColumns ms es sets = .ok cols) :
    ∃ gs us, GroupingColumns es sets gs ∧ MeasureColumns ms us ∧ cols = gs ++ us := by
  obtain ⟨gs, us, e, hg, hm⟩ := aggregateColumns_spec h
  refine ⟨gs, us, ?_, hm, e⟩
  have hlen : gs.length = es.length := by
    rw [← hg.length_eq, ← List.length_map (f := UInt32.toNat), hr, List.length_range]
  refine ⟨hlen, fun k e u he hu => ?_⟩
  have hk : k < es.length := (List.getElem?_eq_some_iff.1 he).1
  have hflat : ∃ r, sets.flatten[k]? = some r ∧ r.toNat = k := by
    have : (sets.flatten.map UInt32.toNat)[k]? = some k := by
      rw [hr, List.getElem?_range hk]
    rw [List.getElem?_map] at this
    simpa using this
  obtain ⟨r, hr1, hr2⟩ := hflat
  have hget : ∃ e', es[r.toNat]? = some e' ∧ e'.getType = .ok u := by
    have := List.forall₂_iff_get.1 hg
    obtain ⟨hk1, hr1⟩ := List.getElem?_eq_some_iff.1 hr1
    obtain ⟨hk2, hu⟩ := List.getElem?_eq_some_iff.1 hu
    have := this.2 k hk1 hk2
    simp only [List.get_eq_getElem, hr1, hu] at this
    exact this
  rw [hr2, he] at hget
  obtain ⟨_, h1, h2⟩ := hget
  cases h1
  refine ⟨u, h2, fun _ => rfl, ?_⟩
  rintro ⟨set, hset, hno⟩
  match sets, hs with
  | [s], _ =>
    rw [List.mem_singleton] at hset
    subst hset
    simp only [List.flatten_cons, List.flatten_nil, List.append_nil] at hr1
    exact absurd hr2 (hno r (List.mem_of_getElem? hr1))

/-- **C119 (full statement).** The record type of a relation consists of the columns the
specification prescribes for it, given the columns of its inputs, selected by its output mapping. -/
def C119_statement (den : Nat → List Ty → List Ty) : Prop :=
  ∀ (r : Rel) (ins : List (List Ty)) (out : List Ty),
    List.Forall₂ (fun (i : Rel) ts => i.recordType = .ok ts) r.getInputs ins →
    (∀ ts ∈ ins, ∀ t ∈ ts, t.PlanType) → r.recordType = .ok out →
    ∃ direct, r.Prescribes den ins direct ∧ r.Emits direct out

/-- **C119 (partial).** It does for relations with plain output. -/
theorem C119_columns_partial (den : Nat → List Ty → List Ty) (r : Rel) (ins : List (List Ty))
    (out : List Ty)
    (hin : List.Forall₂ (fun (i : Rel) ts => i.recordType = .ok ts) r.getInputs ins)
    (hp : ∀ ts ∈ ins, ∀ t ∈ ts, t.PlanType) (hc : r.PlainOutput ins) (h : r.recordType = .ok out) :
    ∃ direct, r.Prescribes den ins direct ∧ r.Emits direct out := by
  have split : ∃ direct, r.directOutputSchema = .ok direct ∧ r.Emits direct out := by
    unfold Rel.recordType at h
    obtain ⟨d, h1, h2⟩ := Res.bind_eq_ok.1 h
    refine ⟨d, h1, ?_⟩
    unfold Rel.Emits
    split
    · rename_i hm
      rw [common_remap_none hm] at h2
      cases h2; rfl
    · rename_i m hm
      exact (common_remap_some hm).1 h2
  obtain ⟨d, hd, he⟩ := split
  refine ⟨d, ?_, he⟩
  clear h he
  cases r with
  | read c b k =>
    simp only [Rel.PlainOutput] at hc
    simp only [Rel.directOutputSchema] at hd
    cases hd
    simp only [Rel.Prescribes, hc]
  | project c i es a =>
    simp only [Rel.getInputs] at hin
    obtain ⟨ts, hts⟩ : ∃ ts, ins = [ts] ∧ i.recordType = .ok ts := by
      cases hin with | cons h hn => cases hn; exact ⟨_, rfl, h⟩
    have h1 : (i.directOutputSchema >>= i.common.remap) = .ok ts := hts.2
    simp only [Rel.directOutputSchema, h1, Res.ok_bind] at hd
    obtain ⟨us, hu, hd⟩ := Res.bind_eq_ok.1 hd
    cases hd
    exact ⟨ts, us, hts.1, mapL_forall₂.1 hu, rfl⟩
  | join c l r e p ty a =>
    obtain ⟨ls, rs, rfl, hl, hr⟩ : ∃ ls rs, ins = [ls, rs] ∧ l.recordType = .ok ls ∧ r.recordType = .ok rs := by
      simp only [Rel.getInputs] at hin
      cases hin with | cons h hn => cases hn with | cons h' hn => cases hn; exact ⟨_, _, rfl, h, h'⟩
    obtain ⟨o, ho, hn, -⟩ := C36_join_columns {} l r e p ty a ls rs hl hr (hp _ (by simp)) (hp _ (by simp))
    have ho' := hn rfl
    unfold Rel.recordType at ho'
    rw [show (Rel.join {} l r e p ty a).directOutputSchema = (Rel.join c l r e p ty a).directOutputSchema from by
      simp only [Rel.directOutputSchema], hd, Res.ok_bind] at ho'
    rw [common_remap_none rfl] at ho'
    cases ho'
    exact ⟨ls, rs, rfl, ho⟩
  | cross c l r a =>
    obtain ⟨ls, rs, rfl, hl, hr⟩ : ∃ ls rs, ins = [ls, rs] ∧ l.recordType = .ok ls ∧ r.recordType = .ok rs := by
      simp only [Rel.getInputs] at hin
      cases hin with | cons h hn => cases hn with | cons h' hn => cases hn; exact ⟨_, _, rfl, h, h'⟩
    have h1 : (l.directOutputSchema >>= l.common.remap) = .ok ls := hl
    have h2 : (r.directOutputSchema >>= r.common.remap) = .ok rs := hr
    simp only [Rel.directOutputSchema, h1, h2, Res.ok_bind] at hd
    cases hd
    exact ⟨ls, rs, rfl, rfl⟩
  | fetch c i o n a =>
    simp only [Rel.getInputs] at hin
    cases hin with | cons h hn => 
      cases hn
      have h1 : (i.directOutputSchema >>= i.common.remap) = .ok _ := h
      simp only [Rel.directOutputSchema, h1] at hd
      cases hd
      rfl
  | sort c i ss a =>
    simp only [Rel.getInputs] at hin
    cases hin with | cons h hn => 
      cases hn
      have h1 : (i.directOutputSchema >>= i.common.remap) = .ok _ := h
      simp only [Rel.directOutputSchema, h1] at hd
      cases hd
      rfl
  | filter c i e a =>
    simp only [Rel.getInputs] at hin
    cases hin with | cons h hn => 
      cases hn
      have h1 : (i.directOutputSchema >>= i.common.remap) = .ok _ := h
      simp only [Rel.directOutputSchema, h1] at hd
      cases hd
      rfl
  | aggregate c i ms es sets a =>
    simp only [Rel.PlainOutput] at hc
    simp only [Rel.directOutputSchema] at hd
    obtain ⟨gs, us, hg, hm, e⟩ := aggregate_plain hc.1 hc.2 hd
    refine ⟨gs, us, hg, hm, ?_⟩
    rw [if_neg (by have := hc.1; omega), List.append_nil]
    exact e
  | set c is op a =>
    simp only [Rel.getInputs] at hin
    cases hin with
    | nil => simp only [Rel.directOutputSchema, reduceCtorEq] at hd
    | @cons i first is rest h hn =>
      have h1 : (i.directOutputSchema >>= i.common.remap) = .ok _ := h
      simp only [Rel.directOutputSchema, h1] at hd
      cases hd
      simp only [Rel.PlainOutput] at hc
      simp only [Rel.Prescribes]
      split
      · refine ⟨d, rfl, rfl, fun k t u ht hu => ?_⟩
        rw [ht] at hu
        cases hu
        refine ⟨?_, fun _ => rfl⟩
        rintro ⟨ts, hts, v, hv, hvn⟩
        rw [nullableOf_self (hp d (by simp) t (List.mem_of_getElem? ht))]
        rcases List.mem_cons.1 hts with rfl | hts
        · rw [ht] at hv; cases hv; exact hvn
        · exact hc d rest rfl ts hts k v t hv hvn ht
      · split
        · rfl
        · intro f hf
          exact hf d (by simp)
  | extSingle c i df =>
    simp only [Rel.getInputs] at hin
    cases hin with | cons h hn => 
      cases hn
      have h1 : (i.directOutputSchema >>= i.common.remap) = .ok _ := h
      cases df <;> simp only [Rel.directOutputSchema, h1, Res.ok_bind] at hd <;> cases hd <;>
        simp only [Rel.Prescribes]
  | extLeaf c df =>
    simp only [Rel.getInputs] at hin
    cases hin
    cases df <;> simp only [Rel.directOutputSchema] at hd <;> cases hd <;> simp only [Rel.Prescribes]
  | extMulti c is df =>
    simp only [Rel.getInputs] at hin
    cases df with
    | undecoded _ => trivial
    | custom f _ =>
      have key : ∀ (is : List Rel) ins, List.Forall₂ (fun (i : Rel) ts => i.recordType = .ok ts) is ins →
          Rel.recordTypes is = .ok ins := by
        intro is ins h
        induction h with
        | nil => simp only [Rel.recordTypes]
        | cons h _ ih =>
          have h1 : (_ >>= _) = Res.ok _ := h
          simp only [Rel.recordTypes, h1, ih, Res.ok_bind]
      simp only [Rel.directOutputSchema, key _ _ hin, Res.ok_bind] at hd
      cases hd
      simp only [Rel.Prescribes]
  | hashJoin c l r ks p ty a =>
    obtain ⟨ls, rs, rfl, hl, hr⟩ : ∃ ls rs, ins = [ls, rs] ∧ l.recordType = .ok ls ∧ r.recordType = .ok rs := by
      simp only [Rel.getInputs] at hin
      cases hin with | cons h hn => cases hn with | cons h' hn => cases hn; exact ⟨_, _, rfl, h, h'⟩
    have h1 : (l.directOutputSchema >>= l.common.remap) = .ok ls := hl
    have h2 : (r.directOutputSchema >>= r.common.remap) = .ok rs := hr
    simp only [Rel.directOutputSchema, h1, h2, Res.ok_bind] at hd
    cases hd
    exact ⟨ls, rs, rfl, (keepsAll_iff ty ls rs (hp _ (by simp)) (hp _ (by simp))).2 (hc ls rs rfl)⟩
  | mergeJoin c l r ks p ty a =>
    obtain ⟨ls, rs, rfl, hl, hr⟩ : ∃ ls rs, ins = [ls, rs] ∧ l.recordType = .ok ls ∧ r.recordType = .ok rs := by
      simp only [Rel.getInputs] at hin
      cases hin with | cons h hn => cases hn with | cons h' hn => cases hn; exact ⟨_, _, rfl, h, h'⟩
    have h1 : (l.directOutputSchema >>= l.common.remap) = .ok ls := hl
    have h2 : (r.directOutputSchema >>= r.common.remap) = .ok rs := hr
    simp only [Rel.directOutputSchema, h1, h2, Res.ok_bind] at hd
    cases hd
    exact ⟨ls, rs, rfl, (keepsAll_iff ty ls rs (hp _ (by simp)) (hp _ (by simp))).2 (hc ls rs rfl)⟩
  | write c ns a s op i mode =>
    cases mode <;> simp only [Rel.directOutputSchema] at hd <;> cases hd <;> simp only [Rel.Prescribes]

theorem erase_nullability (t : Ty) : t.erase.nullability = t.nullability := by
  cases t <;> simp [Ty.erase, Ty.nullability]

theorem eraseList_getElem : ∀ {as bs : List Ty}, Ty.eraseList as = Ty.eraseList bs →
    ∀ {k : Nat} {a b : Ty}, as[k]? = some a → bs[k]? = some b → a.erase = b.erase
  | [], _, _, _, _, _, ha, _ => by simp at ha
  | _ :: _, [], _, _, _, _, _, hb => by simp at hb
  | x :: xs, y :: ys, h, k, a, b, ha, hb => by
    simp only [Ty.eraseList, List.cons.injEq] at h
    cases k with
    | zero => simp at ha hb; subst ha hb; exact h.1
    | succ k => exact eraseList_getElem h.2 (by simpa using ha) (by simpa using hb)

/-! ### Relations made by the builder -/

/-- **C119 (builder).** Every relation the builder calls make has plain output, so that C119 holds of
it: `Project`, `Cross`, `Fetch`, `Filter`, `Join…`, `Sort`, `Set`, `NamedScan`, `VirtualTable…`,
`NamedWrite` and `CreateTableAsSelect`, with or without an output mapping. -/
theorem C119_built (den : Nat → List Ty → List Ty) (call : BuildCall) (m : Option (List Int32)) (r : Rel)
    (ins : List (List Ty)) (out : List Ty) (hb : call.run m = .ok r)
    (hin : List.Forall₂ (fun (i : Rel) ts => i.recordType = .ok ts) r.getInputs ins)
    (hp : ∀ ts ∈ ins, ∀ t ∈ ts, t.PlanType) (h : r.recordType = .ok out) :
    ∃ direct, r.Prescribes den ins direct ∧ r.Emits direct out := by
  refine C119_columns_partial den r ins out hin hp ?_ h
  have ha := run_asks call m r hb
  cases call with
  | set op is =>
    obtain ⟨xs, rfl, rfl⟩ := ha
    simp only [BuildCall.run, setRemap, allInputs_map] at hb
    split at hb
    · cases hb
    split at hb
    · cases hb
    cases xs with
    | nil => cases hb
    | cons x xs =>
      obtain ⟨ts, hts, hb⟩ := Res.bind_eq_ok.1 hb
      obtain ⟨⟨⟩, _, hb⟩ := Res.bind_eq_ok.1 hb
      obtain ⟨⟨⟩, hs, _⟩ := Res.bind_eq_ok.1 hb
      simp only [Rel.getInputs] at hin
      cases hin with
      | @cons _ first _ rest h1 hn =>
        rw [hts] at h1
        cases h1
        have hpt : Ty.PlanTypeList ts := planTypeList_of_mem (hp ts (by simp))
        intro f rs e us hus k v t hv hvn ht
        cases e
        have hmem : ∃ i ∈ xs, i.recordType = .ok us := by
          clear * - hn hus
          induction hn with
          | nil => cases hus
          | cons h _ ih =>
            rcases List.mem_cons.1 hus with rfl | hus
            · exact ⟨_, by simp, h⟩
            · obtain ⟨i, hi, h⟩ := ih hus
              exact ⟨i, by simp [hi], h⟩
        obtain ⟨i, hi, hiu⟩ := hmem
        obtain ⟨us', hu', he⟩ := sameTypes_erase hpt hs i hi
        rw [hiu] at hu'
        cases hu'
        have hk : v.erase = t.erase := eraseList_getElem he hv ht
        rw [← erase_nullability t, ← hk, erase_nullability]
        exact hvn
  | project i es => obtain ⟨_, _, rfl⟩ := ha; trivial
  | cross l r => obtain ⟨_, _, _, _, rfl⟩ := ha; trivial
  | fetch i o n => obtain ⟨_, _, rfl⟩ := ha; trivial
  | filter i e => obtain ⟨_, _, rfl⟩ := ha; trivial
  | join l r e p t => obtain ⟨_, _, _, _, rfl⟩ := ha; trivial
  | sort i ss => obtain ⟨_, _, rfl⟩ := ha; trivial
  | scan ns s => cases ha; rfl
  | virt ns vs => obtain ⟨_, _, _, _, _, _, rfl⟩ := ha; rfl
  | write i op ns s => obtain ⟨_, _, rfl⟩ := ha; trivial
  | ctas i ns s => obtain ⟨_, _, rfl⟩ := ha; trivial

/-- **C119 (grouping by columns).** It holds of the aggregates `AggregateColumns` makes. -/
theorem C119_by_columns (den : Nat → List Ty → List Ty) (input : Rel) (ts : List Ty)
    (h : input.recordType = .ok ts) (hp : ∀ t ∈ ts, t.PlanType) (hc : Countable ts) (ms : List Measure)
    (cols : List Int32) (hne : cols ≠ []) (hl : cols.length < 2 ^ 32) (r : Rel) (out : List Ty)
    (hr : aggregateByColumns (some input) ms cols = .ok r) (ho : r.recordType = .ok out) :
    ∃ direct, r.Prescribes den [ts] direct ∧ r.Emits direct out := by
  obtain ⟨es, refs, rfl, -, hrefs⟩ := (C71_aggregateColumns input ts h hc ms cols hne hl).2 r hr
  exact C119_columns_partial den _ [ts] out (List.Forall₂.cons h .nil)
    (fun us hu => by rw [List.mem_singleton.1 hu]; exact hp) ⟨by simp, by simpa using hrefs⟩ ho

/-! ### Hash and merge joins -/

/-- **C119 (hash and merge joins).** The columns of a hash or merge join without output mapping are
the prescribed ones exactly if its type keeps all columns of both inputs: for outer, semi and anti
joins the record type is in general wrong. -/
theorem C119_hash_exact (den : Nat → List Ty → List Ty) (l r : Rel) (ks : List JoinKey) (p : Expr)
    (ty : HashMergeJoinType) (a : Option Nat) (ls rs : List Ty) (hl : l.recordType = .ok ls)
    (hr : r.recordType = .ok rs) (hpl : ∀ t ∈ ls, t.PlanType) (hpr : ∀ t ∈ rs, t.PlanType) :
    ((∃ out, (Rel.hashJoin {} l r ks p ty a).recordType = .ok out ∧
      (Rel.hashJoin {} l r ks p ty a).Prescribes den [ls, rs] out) ↔ ty.KeepsAll ls rs) ∧
    ((∃ out, (Rel.mergeJoin {} l r ks p ty a).recordType = .ok out ∧
      (Rel.mergeJoin {} l r ks p ty a).Prescribes den [ls, rs] out) ↔ ty.KeepsAll ls rs) := by
  have h1 : (l.directOutputSchema >>= l.common.remap) = .ok ls := hl
  have h2 : (r.directOutputSchema >>= r.common.remap) = .ok rs := hr
  have e1 : (Rel.hashJoin {} l r ks p ty a).recordType = .ok (ls ++ rs) := by
    simp only [Rel.recordType, Rel.directOutputSchema, h1, h2, Res.ok_bind]
    exact common_remap_none (c := {}) rfl _
  have e2 : (Rel.mergeJoin {} l r ks p ty a).recordType = .ok (ls ++ rs) := by
    simp only [Rel.recordType, Rel.directOutputSchema, h1, h2, Res.ok_bind]
    exact common_remap_none (c := {}) rfl _
  rw [e1, e2, ← keepsAll_iff ty ls rs hpl hpr]
  simp only [Res.ok.injEq, Rel.Prescribes, exists_eq_left']
  constructor
  all_goals
    constructor
    · rintro ⟨ls', rs', e, h⟩
      cases e
      exact h
    · exact fun h => ⟨_, _, rfl, h⟩

/-! ### Several grouping sets -/

/-- **C119 (several grouping sets).** An aggregate with two or more grouping sets never has the
prescribed columns, unless its sets mention exactly one reference more than there are grouping
expressions: the prescribed row has one column per expression and the number of the grouping set, but
the record type lists one column for each reference of each set. -/
theorem C119_grouping_sets (den : Nat → List Ty → List Ty) (i : Rel) (ms : List Measure) (es : List Expr)
    (sets : List (List UInt32)) (a : Option Nat) (ins : List (List Ty)) (out : List Ty)
    (h2 : 2 ≤ sets.length) (hn : sets.flatten.length ≠ es.length + 1)
    (h : (Rel.aggregate {} i ms es sets a).recordType = .ok out) :
    ¬ (Rel.aggregate {} i ms es sets a).Prescribes den ins out := by
  rintro ⟨gs, us, hg, hm, e⟩
  rw [if_pos h2] at e
  simp only [Rel.recordType, Rel.directOutputSchema, Rel.common] at h
  obtain ⟨cols, hc, h⟩ := Res.bind_eq_ok.1 h
  rw [common_remap_none rfl] at h
  cases h
  obtain ⟨gs', us', e', hg', hm'⟩ := aggregateColumns_spec hc
  have l1 := congrArg List.length e
  have l2 := congrArg List.length e'
  have l3 := hg'.length_eq
  have l4 := hm'.length_eq
  have l5 := hm.length_eq
  have l6 := hg.1
  simp only [List.length_append, List.length_cons, List.length_nil] at l1 l2
  omega

/-! ### Negations -/

/-- a read of two columns with a projection mask -/
def maskedScan : Rel := .read {} { schema := { names := ["a", "b"], types := [.prim .i32 2 0, .prim .boolean 2 0] }, projection := some 0 } (.named ["t"] none)

/-- **C119 is false of the code (projection masks)**, whatever the masks mean as long as mask 0 drops
a column of this table: the record type of a read ignores its mask. -/
theorem C119_negation_projection (den : Nat → List Ty → List Ty)
    (hd : (den 0 [.prim .i32 2 0, .prim .boolean 2 0]).length ≠ 2) : ¬ C119_statement den := by
  intro h
  obtain ⟨d, h1, h2⟩ := h maskedScan [] [.prim .i32 2 0, .prim .boolean 2 0] .nil (by simp) rfl
  have h2 : _ = d := h2
  have h1 : d = den 0 _ := h1
  rw [← h2] at h1
  exact hd (congrArg List.length h1).symm

/-- **C119 is false of the code (hash joins)**: a semi join is said to put out the columns of both
inputs. -/
theorem C119_negation_hash (den : Nat → List Ty → List Ty) : ¬ C119_statement den := by
  intro h
  obtain ⟨d, ⟨ls, rs, e, h1⟩, h2⟩ := h (.hashJoin {} sampleScan sampleScan [] .nil 5 none) [_, _] _
    (.cons rfl (.cons rfl .nil)) (by simp [Ty.PlanType]) rfl
  cases e
  have h2 : _ = d := h2
  have h1 : d = _ := h1
  rw [← h2] at h1
  exact absurd (congrArg List.length h1) (by decide)

/-- **C119 is false of the code (unions)**: the record type of a union is that of its first input,
even if another input has nulls in a column. The builder demands equal types, a decoded plan need not
have them. -/
theorem C119_negation_union (den : Nat → List Ty → List Ty) : ¬ C119_statement den := by
  intro h
  obtain ⟨d, h1, h2⟩ := h (.set {} [
      .read {} { schema := { names := ["a"], types := [.prim .i32 2 0] } } (.named ["t"] none),
      .read {} { schema := { names := ["a"], types := [.prim .i32 1 0] } } (.named ["u"] none)] 6 none)
    [[.prim .i32 2 0], [.prim .i32 1 0]] [.prim .i32 2 0] (.cons rfl (.cons rfl .nil)) (by simp [Ty.PlanType]) rfl
  have h2 : _ = d := h2
  subst h2
  obtain ⟨first, e, -, h3⟩ := h1
  cases e
  have := ((h3 0 _ _ rfl rfl).1 ⟨[.prim .i32 1 0], by simp, _, rfl, rfl⟩).1
  exact absurd this (by decide)

/-- **C119 is false of the code (grouping sets)**: grouping by both columns, by either and by none. -/
theorem C119_negation_grouping (den : Nat → List Ty → List Ty) : ¬ C119_statement den := by
  intro h
  obtain ⟨d, h1, h2⟩ := h (.aggregate {} sampleScan [] [sampleCond, exSeven] [[0], [1], [0, 1], []] none) [_] _
    (.cons rfl .nil) (by simp [Ty.PlanType]) rfl
  have h2 : _ = d := h2
  subst h2
  exact C119_grouping_sets den sampleScan [] _ _ none _ _ (by decide) (by decide) rfl h1

/-! ### The hypotheses are met -/

example : (BuildCall.set 6 [some sampleScan, some sampleScan]).run (some [1]) =
      .ok (.set { mapping := some [1] } [sampleScan, sampleScan] 6 none) ∧
    (Rel.set { mapping := some [1] } [sampleScan, sampleScan] 6 none).recordType = .ok [.prim .boolean 2 0] ∧
    (Rel.set { mapping := some [1] } [sampleScan, sampleScan] 6 none).PlainOutput
      [[.prim .i32 2 0, .prim .boolean 2 0], [.prim .i32 2 0, .prim .boolean 2 0]] ∧
    (Rel.aggregate {} sampleScan [] [sampleCond, exSeven] [[0, 1]] none).PlainOutput [] ∧
    (3 : HashMergeJoinType).KeepsAll [.prim .i32 2 0] [.prim .i32 1 0] ∧
    ¬ (3 : HashMergeJoinType).KeepsAll [.prim .i32 1 0] [.prim .i32 2 0] := by
  refine ⟨?_, rfl, ?_, ⟨by decide, by decide⟩, ?_, ?_⟩
  · have e : sampleScan.recordType = .ok [.prim .i32 2 0, .prim .boolean 2 0] := rfl
    simp [BuildCall.run, setRemap, allInputs, e, checkSameTypes, recordTypeEquals, Ty.equals, Ty.equalsList]
    rfl
  · intro f rs e ts hts k v t hv hn ht
    cases e
    simp at hts
    subst hts
    rw [ht] at hv
    cases hv
    exact hn
  · simp [HashMergeJoinType.KeepsAll, Ty.nullability, NullabilityNullable]
  · simp [HashMergeJoinType.KeepsAll, Ty.nullability, NullabilityNullable]

example : aggregateByColumns (some sampleScan) [] [1, 0, 1] =
      .ok (.aggregate {} sampleScan [] [sampleCond, .fieldRef .rootReference (.seg (.structField 0 .nil)) (some (.prim .i32 2 0)), sampleCond] [[0, 1, 2]] none) ∧
    (Rel.aggregate {} sampleScan [] [sampleCond, .fieldRef .rootReference (.seg (.structField 0 .nil)) (some (.prim .i32 2 0)), sampleCond] [[0, 1, 2]] none).recordType =
      .ok [.prim .boolean 2 0, .prim .i32 2 0, .prim .boolean 2 0] := ⟨rfl, rfl⟩

example : [[(0 : UInt32), 1], [0], [1], []].flatten.length ≠ [sampleCond, exSeven].length + 1 := by decide

example : ∃ den : Nat → List Ty → List Ty, (den 0 [.prim .i32 2 0, .prim .boolean 2 0]).length ≠ 2 :=
  ⟨fun _ ts => ts.take 1, by decide⟩

end Verif

import Verif.Spec.Rows
import Verif.Lemmas.Value
import Verif.Lemmas.Rel
import Verif.Lemmas.Aggregate
/-!
# Lemmas on the rows of relations
-/

namespace Verif

theorem inTypes_iff {vs : List Val} {ts : List Ty} :
    Val.InTypes vs ts ↔ List.Forall₂ Val.InType vs ts := by
  induction vs generalizing ts with
  | nil => cases ts <;> simp [Val.InTypes]
  | cons v vs ih => cases ts <;> simp [Val.InTypes, ih]

theorem inTypes_append {as bs : List Val} {ts us : List Ty} (h : Val.InTypes as ts)
    (h' : Val.InTypes bs us) : Val.InTypes (as ++ bs) (ts ++ us) := by
  induction as generalizing ts with
  | nil =>
    cases ts with
    | nil => simpa using h'
    | cons t ts => simp [Val.InTypes] at h
  | cons a as ih =>
    cases ts with
    | nil => simp [Val.InTypes] at h
    | cons t ts =>
      simp only [Val.InTypes, List.cons_append] at h ⊢
      exact ⟨h.1, ih h.2⟩

theorem inTypes_length {vs : List Val} {ts : List Ty} (h : Val.InTypes vs ts) :
    vs.length = ts.length := (inTypes_iff.1 h).length_eq

theorem inTypes_picks {vs : List Val} {ts : List Ty} (h : Val.InTypes vs ts) {m : List Int32} :
    ∀ {us : List Val} {out : List Ty}, Picks vs m us → Picks ts m out → Val.InTypes us out := by
  unfold Picks
  intro us out hv ht
  induction hv generalizing out with
  | nil => cases ht; simp [Val.InTypes]
  | cons h1 _ ih =>
    cases ht with
    | cons h2 ht =>
      simp only [Val.InTypes]
      exact ⟨inTypes_get _ h h1.2 h2.2, ih ht⟩

/-- an output mapping picks values and types alike -/
theorem emits_inTypes {c : RelCommon} {ds vs : List Val} {ts out : List Ty} (h : Val.InTypes ds ts)
    (hv : c.EmitsRow ds vs) (ht : c.remap ts = .ok out) : Val.InTypes vs out := by
  unfold RelCommon.EmitsRow at hv
  cases hm : c.mapping with
  | none =>
    rw [hm] at hv
    rw [common_remap_none hm] at ht
    cases ht
    rw [hv]
    exact h
  | some m =>
    rw [hm] at hv
    exact inTypes_picks h hv ((common_remap_some hm).1 ht)

theorem nullability_asNullable (t : Ty) : (asNullable t).IsNullable := by
  cases t <;> rfl

theorem inType_asNullable {v : Val} {t : Ty} (h : v.InType t) : v.InType (asNullable t) := by
  by_cases hv : v = .null
  · subst hv
    simp only [Val.InType]
    exact nullability_asNullable t
  · exact (inType_withNullability hv t _).2 h

theorem inTypes_asNullable : ∀ {vs : List Val} {ts : List Ty}, Val.InTypes vs ts →
    Val.InTypes vs (ts.map asNullable)
  | [], [], _ => by simp [Val.InTypes]
  | [], _ :: _, h => by simp [Val.InTypes] at h
  | _ :: _, [], h => by simp [Val.InTypes] at h
  | v :: vs, t :: ts, h => by
    simp only [Val.InTypes, List.map_cons] at h ⊢
    exact ⟨inType_asNullable h.1, inTypes_asNullable h.2⟩

theorem inTypes_nulls : ∀ {ts : List Ty}, (∀ t ∈ ts, t.IsNullable) →
    Val.InTypes (List.replicate ts.length .null) ts
  | [], _ => by simp [Val.InTypes]
  | t :: ts, h => by
    simp only [List.length_cons, List.replicate_succ, Val.InTypes, Val.InType]
    exact ⟨h t (by simp), inTypes_nulls fun u hu => h u (List.mem_cons_of_mem _ hu)⟩

theorem inTypes_nulls_map (ts : List Ty) :
    Val.InTypes (List.replicate ts.length .null) (ts.map asNullable) := by
  have := inTypes_nulls (ts := ts.map asNullable) (by
    intro t ht
    obtain ⟨u, -, rfl⟩ := List.mem_map.1 ht
    exact nullability_asNullable u)
  rwa [List.length_map] at this

theorem inTypes_within {vs : List Val} {us ts : List Ty} (h : Val.InTypes vs us)
    (hw : ColumnsWithin us ts) : Val.InTypes vs ts := by
  unfold ColumnsWithin at hw
  induction hw generalizing vs with
  | nil => exact h
  | cons h1 _ ih =>
    cases vs with
    | nil => simp [Val.InTypes] at h
    | cons v vs =>
      simp only [Val.InTypes] at h ⊢
      exact ⟨inType_of_sameKind h.1 h1.1 h1.2, ih h.2⟩

/-- the columns of a logical join, `plan/relations.go:823-858` -/
theorem join_direct {c : RelCommon} {l r : Rel} {e p : Expr} {ty : JoinType} {a : Option Nat}
    {ls rs out : List Ty} (hl : l.recordType = .ok ls) (hr : r.recordType = .ok rs)
    (h : (Rel.join c l r e p ty a).directOutputSchema = .ok out) :
    out = match ty with
      | .inner => ls ++ rs
      | .outer => (ls ++ rs).map asNullable
      | .left | .leftSingle => ls ++ rs.map asNullable
      | .right | .rightSingle => ls.map asNullable ++ rs
      | .leftSemi | .leftAnti => ls
      | .rightSemi | .rightAnti => rs
      | .unspecified | .other _ => [] := by
  have h1 : (l.directOutputSchema >>= l.common.remap) = .ok ls := hl
  have h2 : (r.directOutputSchema >>= r.common.remap) = .ok rs := hr
  cases ty <;> simp only [Rel.directOutputSchema, h1, h2, Res.ok_bind] at h <;> cases h <;> rfl

theorem joinRows_logical {ty : JoinType} {L R : List Val → Prop} {hit : List Val → List Val → Prop}
    {ls rs : List Ty} (hL : ∀ a, L a → Val.InTypes a ls) (hR : ∀ b, R b → Val.InTypes b rs)
    {vs : List Val} (h : JoinRows ty L R hit ls.length rs.length vs) :
    Val.InTypes vs (match ty with
      | .inner => ls ++ rs
      | .outer => (ls ++ rs).map asNullable
      | .left | .leftSingle => ls ++ rs.map asNullable
      | .right | .rightSingle => ls.map asNullable ++ rs
      | .leftSemi | .leftAnti => ls
      | .rightSemi | .rightAnti => rs
      | .unspecified | .other _ => []) := by
  cases ty <;> simp only [JoinRows] at h ⊢
  case inner =>
    obtain ⟨a, b, ha, hb, -, rfl⟩ := h
    exact inTypes_append (hL a ha) (hR b hb)
  case outer =>
    rw [List.map_append]
    rcases h with ⟨a, b, ha, hb, -, rfl⟩ | ⟨a, ha, -, rfl⟩ | ⟨b, hb, -, rfl⟩
    · exact inTypes_append (inTypes_asNullable (hL a ha)) (inTypes_asNullable (hR b hb))
    · exact inTypes_append (inTypes_asNullable (hL a ha)) (inTypes_nulls_map rs)
    · exact inTypes_append (inTypes_nulls_map ls) (inTypes_asNullable (hR b hb))
  case left =>
    rcases h with ⟨a, b, ha, hb, -, rfl⟩ | ⟨a, ha, -, rfl⟩
    · exact inTypes_append (hL a ha) (inTypes_asNullable (hR b hb))
    · exact inTypes_append (hL a ha) (inTypes_nulls_map rs)
  case leftSingle =>
    rcases h with ⟨a, b, ha, hb, -, rfl⟩ | ⟨a, ha, -, rfl⟩
    · exact inTypes_append (hL a ha) (inTypes_asNullable (hR b hb))
    · exact inTypes_append (hL a ha) (inTypes_nulls_map rs)
  case right =>
    rcases h with ⟨a, b, ha, hb, -, rfl⟩ | ⟨b, hb, -, rfl⟩
    · exact inTypes_append (inTypes_asNullable (hL a ha)) (hR b hb)
    · exact inTypes_append (inTypes_nulls_map ls) (hR b hb)
  case rightSingle =>
    rcases h with ⟨a, b, ha, hb, -, rfl⟩ | ⟨b, hb, -, rfl⟩
    · exact inTypes_append (inTypes_asNullable (hL a ha)) (hR b hb)
    · exact inTypes_append (inTypes_nulls_map ls) (hR b hb)
  case leftSemi => exact hL _ h.1
  case leftAnti => exact hL _ h.1
  case rightSemi => exact hR _ h.1
  case rightAnti => exact hR _ h.1

theorem joinRows_keepsAll {ty : HashMergeJoinType} {L R : List Val → Prop}
    {hit : List Val → List Val → Prop} {ls rs : List Ty} (hL : ∀ a, L a → Val.InTypes a ls)
    (hR : ∀ b, R b → Val.InTypes b rs) (hk : ty.KeepsAll ls rs) {vs : List Val}
    (h : JoinRows ty.asJoin L R hit ls.length rs.length vs) : Val.InTypes vs (ls ++ rs) := by
  unfold HashMergeJoinType.KeepsAll at hk
  obtain ⟨k2, k3, k4, k57, k68⟩ := hk
  by_cases h1 : ty = 1
  · subst h1
    obtain ⟨a, b, ha, hb, -, rfl⟩ : ∃ a b, L a ∧ R b ∧ hit a b ∧ vs = a ++ b := h
    exact inTypes_append (hL a ha) (hR b hb)
  by_cases h2 : ty = 2
  · subst h2
    rcases h with ⟨a, b, ha, hb, -, rfl⟩ | ⟨a, ha, -, rfl⟩ | ⟨b, hb, -, rfl⟩
    · exact inTypes_append (hL a ha) (hR b hb)
    · exact inTypes_append (hL a ha) (inTypes_nulls (k2 rfl).2)
    · exact inTypes_append (inTypes_nulls (k2 rfl).1) (hR b hb)
  by_cases h3 : ty = 3
  · subst h3
    rcases h with ⟨a, b, ha, hb, -, rfl⟩ | ⟨a, ha, -, rfl⟩
    · exact inTypes_append (hL a ha) (hR b hb)
    · exact inTypes_append (hL a ha) (inTypes_nulls (k3 rfl))
  by_cases h4 : ty = 4
  · subst h4
    rcases h with ⟨a, b, ha, hb, -, rfl⟩ | ⟨b, hb, -, rfl⟩
    · exact inTypes_append (hL a ha) (hR b hb)
    · exact inTypes_append (inTypes_nulls (k4 rfl)) (hR b hb)
  by_cases h5 : ty = 5
  · subst h5
    rw [k57 (.inl rfl), List.append_nil]
    exact hL _ (And.left h)
  by_cases h6 : ty = 6
  · subst h6
    rw [k68 (.inl rfl), List.nil_append]
    exact hR _ (And.left h)
  by_cases h7 : ty = 7
  · subst h7
    rw [k57 (.inr rfl), List.append_nil]
    exact hL _ (And.left h)
  by_cases h8 : ty = 8
  · subst h8
    rw [k68 (.inr rfl), List.nil_append]
    exact hR _ (And.left h)
  simp only [HashMergeJoinType.asJoin, h1, h2, h3, h4, h5, h6, h7, h8, if_false, JoinRows] at h

theorem types_mapL : ∀ es : List Expr, Expr.getTypes es = Res.mapL Expr.getType es
  | [] => rfl
  | e :: es => by rw [Expr.getTypes, Res.mapL_cons, types_mapL es]

theorem good_inTypes {g : Engine} {s : Shape} (hg : g.Fits s) {ts us : List Ty} {es : List Expr}
    (h : s.Good ts es) {row vs : List Val} (hr : Val.InTypes row ts)
    (hv : Expr.YieldsList (g.at row) es vs) (hu : Res.mapL Expr.getType es = .ok us) :
    Val.InTypes vs us := by
  obtain ⟨us', h1, h2⟩ := list_inTypes _ _ (hg.world row ts hr) es h.1 h.2 vs hv
  rw [types_mapL, hu] at h1
  cases h1
  exact h2

theorem good_getElem {s : Shape} {ts : List Ty} : ∀ {es : List Expr}, s.Good ts es →
    ∀ (k : Nat) (e : Expr), es[k]? = some e → e.Checked (s.at ts) ∧ e.Careful (s.at ts)
  | [], _, k, e, he => by simp at he
  | x :: xs, h, k, e, he => by
    unfold Shape.Good at h
    simp only [Expr.CheckedList, EPlain.CarefulList] at h
    cases k with
    | zero => simp at he; subst he; exact ⟨h.1.1, h.2.1⟩
    | succ k => exact good_getElem (es := xs) ⟨h.1.2, h.2.2⟩ k e (by simpa using he)

theorem inTypes_of_get {vs : List Val} {ts : List Ty} (hl : vs.length = ts.length)
    (h : ∀ (k : Nat) v t, vs[k]? = some v → ts[k]? = some t → v.InType t) : Val.InTypes vs ts := by
  rw [inTypes_iff, List.forall₂_iff_get]
  refine ⟨hl, fun i h1 h2 => ?_⟩
  exact h i _ _ (by simp) (by simp)

/-- the rows of an aggregate with at most one grouping set, which lists all expressions in order -/
theorem aggregate_rows {g : Engine} {s : Shape} (hg : g.Fits s) {I : List Val → Prop}
    {ts cols : List Ty} (hI : ∀ us, I us → Val.InTypes us ts) {ms : List Measure} {es : List Expr}
    {sets : List (List UInt32)} (he : s.Good ts es) (hs : sets.length ≤ 1)
    (hr : sets.flatten.map UInt32.toNat = List.range es.length)
    (hc : aggregateColumns ms es sets = .ok cols) {vs : List Val}
    (h : AggregateRows g I ms es sets vs) : Val.InTypes vs cols := by
  obtain ⟨gs, us, rfl, hgs, hms⟩ := aggregateColumns_spec hc
  obtain ⟨n, set, xs, ys, hset, hx, hy, rfl⟩ := h
  rw [if_neg (by omega), List.append_nil]
  refine inTypes_append ?_ ?_
  · have hlen : gs.length = es.length := by
      rw [← hgs.length_eq, ← List.length_map (f := UInt32.toNat), hr, List.length_range]
    have hflat : ∀ k, k < es.length → ∃ r, sets.flatten[k]? = some r ∧ r.toNat = k := by
      intro k hk
      have : (sets.flatten.map UInt32.toNat)[k]? = some k := by
        rw [hr, List.getElem?_range hk]
      rw [List.getElem?_map] at this
      simpa using this
    have hsetf : set = sets.flatten := by
      match sets, hs with
      | [], _ =>
        simp only [if_true] at hset
        cases n with
        | zero => simpa using hset.symm
        | succ n => simp at hset
      | [x], _ =>
        simp only [List.cons_ne_nil, if_false] at hset
        cases n with
        | zero => simpa using hset.symm
        | succ n => simp at hset
    have htype : ∀ (k : Nat) (e : Expr) (t : Ty), es[k]? = some e → gs[k]? = some t → e.getType = .ok t := by
      intro k e t hke hkt
      obtain ⟨r, hr1, hr2⟩ := hflat k (List.getElem?_eq_some_iff.1 hke).1
      have := List.forall₂_iff_get.1 hgs
      obtain ⟨hk1, hr1⟩ := List.getElem?_eq_some_iff.1 hr1
      obtain ⟨hk2, hu⟩ := List.getElem?_eq_some_iff.1 hkt
      have := this.2 k hk1 hk2
      simp only [List.get_eq_getElem, hr1, hu, hr2] at this
      obtain ⟨e', he', ht⟩ := this
      rw [hke] at he'
      cases he'
      exact ht
    rcases hx with ⟨row, hrow, hxl, hx⟩ | ⟨h0, rfl⟩
    · refine inTypes_of_get (hxl.trans hlen.symm) fun k v t hv ht => ?_
      have hk : k < es.length := by
        rw [← hxl]; exact (List.getElem?_eq_some_iff.1 hv).1
      have hke : es[k]? = some es[k] := List.getElem?_eq_getElem hk
      obtain ⟨r, hr1, hr2⟩ := hflat k hk
      have hy := (hx k _ v hke hv).1 ⟨r, by rw [hsetf]; exact List.mem_of_getElem? hr1, hr2⟩
      obtain ⟨hch, hca⟩ := good_getElem he k _ hke
      obtain ⟨t', ht', hin⟩ := yields_inType _ _ (hg.world row ts (hI row hrow)) _ hch hca v hy
      rw [htype k _ t hke ht] at ht'
      cases ht'
      exact hin
    · have : es.length = 0 := by
        rw [← List.length_range (n := es.length), ← hr, ← hsetf, h0]
        rfl
      rw [this] at hlen ⊢
      rw [List.length_eq_zero_iff.1 hlen]
      simp [Val.InTypes]
  · rw [inTypes_iff]
    clear * - hms hy
    unfold MeasureRow at hy
    induction hms generalizing ys with
    | nil => cases hy; exact .nil
    | cons h1 _ ih =>
      cases hy with
      | cons h2 hy =>
        refine .cons ?_ (ih _ hy)
        obtain ⟨f, hf, rfl⟩ := h1
        obtain ⟨f', hf', hin⟩ := h2
        rw [hf] at hf'
        cases hf'
        exact hin

theorem anyMakes_iff {g : Engine} {vs : List Val} : ∀ {is : List Rel},
    Rel.AnyMakes g is vs ↔ ∃ i ∈ is, i.Yields g vs
  | [] => by simp [Rel.AnyMakes]
  | i :: is => by
    simp only [Rel.AnyMakes, anyMakes_iff (is := is), List.mem_cons, exists_eq_or_imp]
    rfl

theorem allExprsGood_iff {s : Shape} : ∀ {is : List Rel},
    Rel.AllExprsGood s is ↔ ∀ i ∈ is, i.ExprsGood s
  | [] => by simp [Rel.AllExprsGood]
  | i :: is => by simp [Rel.AllExprsGood, allExprsGood_iff (is := is)]

theorem allPlainRows_iff : ∀ {is : List Rel}, Rel.AllPlainRows is ↔ ∀ i ∈ is, i.PlainRows
  | [] => by simp [Rel.AllPlainRows]
  | i :: is => by simp [Rel.AllPlainRows, allPlainRows_iff (is := is)]

mutual
/-- every row of a relation belongs to its columns, before the output mapping -/
theorem makes_inTypes (g : Engine) (s : Shape) (hg : g.Fits s) : ∀ (r : Rel), r.ExprsGood s →
    r.PlainRows → ∀ (vs : List Val) (out : List Ty), r.Makes g vs → r.directOutputSchema = .ok out →
    Val.InTypes vs out
  | .read c b k, he, hp, vs, out, h, ho => by
    simp only [Rel.directOutputSchema, Res.ok.injEq] at ho
    subst ho
    simp only [Rel.ExprsGood] at he
    simp only [Rel.PlainRows] at hp
    simp only [Rel.Makes, hp.1] at h
    obtain ⟨us, h1, -, rfl⟩ := h
    cases k with
    | virt rows =>
      obtain ⟨row, hrow, hy⟩ := h1
      obtain ⟨ts, hts, hw⟩ := hp.2 rows rfl row hrow
      rw [types_mapL] at hts
      exact inTypes_within (good_inTypes hg (he rows rfl row hrow) (row := []) (by simp [Val.InTypes])
        hy hts) hw
    | named _ _ => exact hg.stored _ _ _ h1
    | extTable _ => exact hg.stored _ _ _ h1
    | iceberg _ _ _ _ => exact hg.stored _ _ _ h1
    | files _ _ => exact hg.stored _ _ _ h1
  | .project c i es a, he, hp, vs, out, h, ho => by
    simp only [Rel.ExprsGood] at he
    simp only [Rel.PlainRows] at hp
    simp only [Rel.Makes] at h
    obtain ⟨he, ts, hts, hgood⟩ := he
    obtain ⟨us, ws, hi, hy, rfl⟩ := h
    have h1 : (i.directOutputSchema >>= i.common.remap) = .ok ts := hts
    simp only [Rel.directOutputSchema, h1, Res.ok_bind] at ho
    obtain ⟨xs, hx, ho⟩ := Res.bind_eq_ok.1 ho
    cases ho
    have hin := yields_inTypes g s hg i he hp us ts hi hts
    exact inTypes_append hin (good_inTypes hg hgood hin hy hx)
  | .join c l r e p ty a, he, hp, vs, out, h, ho => by
    simp only [Rel.ExprsGood] at he
    simp only [Rel.PlainRows] at hp
    simp only [Rel.Makes] at h
    obtain ⟨ls, rs, hl, hr, hj, -⟩ := h
    have := joinRows_logical (fun a ha => yields_inTypes g s hg l he.1 hp.1 a ls ha hl)
      (fun b hb => yields_inTypes g s hg r he.2 hp.2 b rs hb hr) hj
    have e := join_direct hl hr ho
    rw [e]
    cases ty <;> exact this
  | .cross c l r a, he, hp, vs, out, h, ho => by
    simp only [Rel.ExprsGood] at he
    simp only [Rel.PlainRows] at hp
    simp only [Rel.Makes] at h
    obtain ⟨a, b, ha, hb, rfl⟩ := h
    simp only [Rel.directOutputSchema] at ho
    obtain ⟨ls, hl, ho⟩ := Res.bind_eq_ok.1 ho
    obtain ⟨rs, hr, ho⟩ := Res.bind_eq_ok.1 ho
    cases ho
    exact inTypes_append (yields_inTypes g s hg l he.1 hp.1 a ls ha hl)
      (yields_inTypes g s hg r he.2 hp.2 b rs hb hr)
  | .fetch c i o n a, he, hp, vs, out, h, ho => by
    simp only [Rel.ExprsGood] at he
    simp only [Rel.PlainRows] at hp
    simp only [Rel.Makes] at h
    simp only [Rel.directOutputSchema] at ho
    exact yields_inTypes g s hg i he hp vs out h ho
  | .sort c i ss a, he, hp, vs, out, h, ho => by
    simp only [Rel.ExprsGood] at he
    simp only [Rel.PlainRows] at hp
    simp only [Rel.Makes] at h
    simp only [Rel.directOutputSchema] at ho
    exact yields_inTypes g s hg i he hp vs out h ho
  | .filter c i e a, he, hp, vs, out, h, ho => by
    simp only [Rel.ExprsGood] at he
    simp only [Rel.PlainRows] at hp
    simp only [Rel.Makes] at h
    simp only [Rel.directOutputSchema] at ho
    exact yields_inTypes g s hg i he hp vs out h.1 ho
  | .aggregate c i ms es sets a, he, hp, vs, out, h, ho => by
    simp only [Rel.ExprsGood] at he
    simp only [Rel.PlainRows] at hp
    simp only [Rel.Makes] at h
    simp only [Rel.directOutputSchema] at ho
    obtain ⟨he, ts, hts, hgood⟩ := he
    exact aggregate_rows hg (fun us hus => yields_inTypes g s hg i he hp.1 us ts hus hts) hgood hp.2.1
      hp.2.2 ho h
  | .set c [] op a, he, hp, vs, out, h, ho => by
    simp only [Rel.Makes] at h
  | .set c (i :: is) op a, he, hp, vs, out, h, ho => by
    simp only [Rel.ExprsGood, Rel.AllExprsGood] at he
    simp only [Rel.PlainRows, Rel.AllPlainRows] at hp
    simp only [Rel.directOutputSchema] at ho
    simp only [Rel.Makes] at h
    split at h
    · rename_i hop
      obtain ⟨ts, hts, hall⟩ := hp.2 hop i is rfl
      have : Res.ok out = .ok ts := ho.symm.trans hts
      cases this
      rcases h with h | h
      · exact yields_inTypes g s hg i he.1 hp.1.1 vs out h ho
      · exact any_inTypes g s hg is he.2 hp.1.2 vs out h hall
    · exact yields_inTypes g s hg i he.1 hp.1.1 vs out h.1 ho
  | .extSingle c i d, he, hp, vs, out, h, ho => by
    simp only [Rel.PlainRows] at hp
    simp only [Rel.Makes] at h
    obtain ⟨f, n, rfl⟩ := hp
    obtain ⟨ts, hts, h⟩ := h
    have h1 : (i.directOutputSchema >>= i.common.remap) = .ok ts := hts
    simp only [Rel.directOutputSchema, h1, Res.ok_bind, Res.ok.injEq] at ho
    subst ho
    exact hg.ext f n _ vs h
  | .extLeaf c d, he, hp, vs, out, h, ho => by
    simp only [Rel.PlainRows] at hp
    simp only [Rel.Makes] at h
    obtain ⟨f, n, rfl⟩ := hp
    simp only [Rel.directOutputSchema, Res.ok.injEq] at ho
    subst ho
    exact hg.ext f n _ vs h
  | .extMulti c is d, he, hp, vs, out, h, ho => by
    simp only [Rel.PlainRows] at hp
    simp only [Rel.Makes] at h
    obtain ⟨f, n, rfl⟩ := hp
    obtain ⟨tss, hts, h⟩ := h
    simp only [Rel.directOutputSchema, hts, Res.ok_bind, Res.ok.injEq] at ho
    subst ho
    exact hg.ext f n _ vs h
  | .hashJoin c l r ks p ty a, he, hp, vs, out, h, ho => by
    simp only [Rel.ExprsGood] at he
    simp only [Rel.PlainRows] at hp
    simp only [Rel.Makes] at h
    obtain ⟨ls, rs, hl, hr, hj, -⟩ := h
    obtain ⟨hp1, hp2, ls', rs', hl', hr', hk⟩ := hp
    rw [hl] at hl'; cases hl'
    rw [hr] at hr'; cases hr'
    have := joinRows_keepsAll (fun a ha => yields_inTypes g s hg l he.1 hp1 a ls ha hl)
      (fun b hb => yields_inTypes g s hg r he.2 hp2 b rs hb hr) hk hj
    have h1 : (l.directOutputSchema >>= l.common.remap) = .ok ls := hl
    have h2 : (r.directOutputSchema >>= r.common.remap) = .ok rs := hr
    simp only [Rel.directOutputSchema, h1, h2, Res.ok_bind, Res.ok.injEq] at ho
    rw [← ho]
    exact this
  | .mergeJoin c l r ks p ty a, he, hp, vs, out, h, ho => by
    simp only [Rel.ExprsGood] at he
    simp only [Rel.PlainRows] at hp
    simp only [Rel.Makes] at h
    obtain ⟨ls, rs, hl, hr, hj, -⟩ := h
    obtain ⟨hp1, hp2, ls', rs', hl', hr', hk⟩ := hp
    rw [hl] at hl'; cases hl'
    rw [hr] at hr'; cases hr'
    have := joinRows_keepsAll (fun a ha => yields_inTypes g s hg l he.1 hp1 a ls ha hl)
      (fun b hb => yields_inTypes g s hg r he.2 hp2 b rs hb hr) hk hj
    have h1 : (l.directOutputSchema >>= l.common.remap) = .ok ls := hl
    have h2 : (r.directOutputSchema >>= r.common.remap) = .ok rs := hr
    simp only [Rel.directOutputSchema, h1, h2, Res.ok_bind, Res.ok.injEq] at ho
    rw [← ho]
    exact this
  | .write c ns a t op i mode, he, hp, vs, out, h, ho => by
    simp only [Rel.ExprsGood] at he
    simp only [Rel.PlainRows] at hp
    cases mode with
    | modifiedRecords =>
      simp only [Rel.Makes] at h
      simp only [Rel.directOutputSchema, Res.ok.injEq] at ho
      subst ho
      obtain ⟨us, hus, hw⟩ := hp.2 rfl
      exact inTypes_within (yields_inTypes g s hg i he hp.1 vs us h hus) hw
    | unspecified => simp only [Rel.Makes] at h
    | noOutput => simp only [Rel.Makes] at h
    | other n => simp only [Rel.Makes] at h
theorem yields_inTypes (g : Engine) (s : Shape) (hg : g.Fits s) : ∀ (r : Rel), r.ExprsGood s →
    r.PlainRows → ∀ (vs : List Val) (out : List Ty),
    (∃ ds, r.Makes g ds ∧ r.common.EmitsRow ds vs) → r.recordType = .ok out → Val.InTypes vs out
  | r, he, hp, vs, out, h, ho => by
    obtain ⟨ds, h1, h2⟩ := h
    obtain ⟨ts, ht, ho⟩ := Res.bind_eq_ok.1 ho
    exact emits_inTypes (makes_inTypes g s hg r he hp ds ts h1 ht) h2 ho
theorem any_inTypes (g : Engine) (s : Shape) (hg : g.Fits s) : ∀ (is : List Rel),
    Rel.AllExprsGood s is → Rel.AllPlainRows is → ∀ (vs : List Val) (ts : List Ty),
    Rel.AnyMakes g is vs → (∀ j ∈ is, ∃ us, j.recordType = .ok us ∧ ColumnsWithin us ts) →
    Val.InTypes vs ts
  | [], _, _, vs, ts, h, _ => by simp only [Rel.AnyMakes] at h
  | i :: is, he, hp, vs, ts, h, ht => by
    simp only [Rel.AllExprsGood] at he
    simp only [Rel.AllPlainRows] at hp
    simp only [Rel.AnyMakes] at h
    rcases h with h | h
    · obtain ⟨us, hus, hw⟩ := ht i (by simp)
      exact inTypes_within (yields_inTypes g s hg i he.1 hp.1 vs us h hus) hw
    · exact any_inTypes g s hg is he.2 hp.2 vs ts h fun j hj => ht j (List.mem_cons_of_mem _ hj)
end

end Verif

import Verif.Lemmas.Rows
import Verif.Props.Value
import Verif.Props.Aggregate
import Verif.Props.VirtualTable
import Verif.Lemmas.PlanBuild
import Verif.Lemmas.NoPanic
/-!
# Property C121: the rows of a relation are of its record type
-/

namespace Verif

/-- The property in full: every row a relation can put out belongs to the record type the relation
states. False: see the negations below. -/
def C121_statement : Prop :=
  ∀ (g : Engine) (s : Shape) (r : Rel) (vs : List Val) (out : List Ty), g.Fits s → r.ExprsGood s →
    r.Yields g vs → r.recordType = .ok out → Val.InTypes vs out

/-- C121, missing: the relations without plain rows. Every row a relation can put out has as many
values as the record type has columns, and each value belongs to its column. -/
theorem C121_rows_partial (g : Engine) (s : Shape) (r : Rel) (vs : List Val) (out : List Ty)
    (hg : g.Fits s) (he : r.ExprsGood s) (hp : r.PlainRows) (h : r.Yields g vs)
    (ho : r.recordType = .ok out) :
    vs.length = out.length ∧
      ∀ (k : Nat) v t, vs[k]? = some v → out[k]? = some t → v.InType t := by
  have := yields_inTypes g s hg r he hp vs out h ho
  exact ⟨inTypes_length this, fun k v t hv ht => inTypes_get k this hv ht⟩

/-- In particular a column whose stated type is not nullable never holds null. -/
theorem C121_required (g : Engine) (s : Shape) (r : Rel) (vs : List Val) (out : List Ty) (k : Nat)
    (t : Ty) (hg : g.Fits s) (he : r.ExprsGood s) (hp : r.PlainRows) (h : r.Yields g vs)
    (ho : r.recordType = .ok out) (ht : out[k]? = some t) (hn : ¬ t.IsNullable) :
    vs[k]? ≠ some .null := by
  intro hv
  exact ne_null_of_inType ((C121_rows_partial g s r vs out hg he hp h ho).2 k _ t hv ht) hn rfl

/-! ## The builder -/

theorem within_of_erase : ∀ {us ts : List Ty}, Ty.eraseList us = Ty.eraseList ts → ColumnsWithin us ts
  | [], [], _ => .nil
  | [], _ :: _, h => by simp [Ty.eraseList] at h
  | _ :: _, [], h => by simp [Ty.eraseList] at h
  | u :: us, t :: ts, h => by
    simp only [Ty.eraseList, List.cons.injEq] at h
    exact .cons ⟨same_sameKind h.1, (isNullable_same h.1).1⟩ (within_of_erase h.2)

/-- A builder call whose inputs and arguments are in order makes a relation in order. -/
theorem C121_call (s : Shape) (c : BuildCall) (m : Option (List Int32)) (r : Rel)
    (h : c.run m = .ok r) (hi : ∀ x, c.Takes x → x.ExprsGood s ∧ x.PlainRows) (hg : c.RowsGood s) :
    r.ExprsGood s ∧ r.PlainRows := by
  have ha := run_asks c m r h
  cases c with
  | project i es =>
    obtain ⟨x, rfl, rfl⟩ := ha
    obtain ⟨h1, h2⟩ := hi x rfl
    simp only [Rel.ExprsGood, Rel.PlainRows]
    simp only [BuildCall.run, projectRemap] at h
    split at h
    · cases h
    obtain ⟨ts, hts, -⟩ := Res.bind_eq_ok.1 h
    exact ⟨⟨h1, ts, hts, hg x ts rfl hts⟩, h2⟩
  | cross a b =>
    obtain ⟨x, y, rfl, rfl, rfl⟩ := ha
    simp only [Rel.ExprsGood, Rel.PlainRows]
    have h1 := hi x (.inl rfl)
    have h2 := hi y (.inr rfl)
    exact ⟨⟨h1.1, h2.1⟩, h1.2, h2.2⟩
  | fetch i o n =>
    obtain ⟨x, rfl, rfl⟩ := ha
    simp only [Rel.ExprsGood, Rel.PlainRows]
    exact hi x rfl
  | filter i e =>
    obtain ⟨x, rfl, rfl⟩ := ha
    simp only [Rel.ExprsGood, Rel.PlainRows]
    exact hi x rfl
  | join a b e p t =>
    obtain ⟨x, y, rfl, rfl, rfl⟩ := ha
    simp only [Rel.ExprsGood, Rel.PlainRows]
    have h1 := hi x (.inl rfl)
    have h2 := hi y (.inr rfl)
    exact ⟨⟨h1.1, h2.1⟩, h1.2, h2.2⟩
  | sort i ss =>
    obtain ⟨x, rfl, rfl⟩ := ha
    simp only [Rel.ExprsGood, Rel.PlainRows]
    exact hi x rfl
  | set op is =>
    obtain ⟨xs, rfl, rfl⟩ := ha
    have hall : ∀ x ∈ xs, x.ExprsGood s ∧ x.PlainRows := fun x hx =>
      hi x (List.mem_map.2 ⟨x, hx, rfl⟩)
    simp only [Rel.ExprsGood, Rel.PlainRows, allExprsGood_iff, allPlainRows_iff]
    refine ⟨fun x hx => (hall x hx).1, fun x hx => (hall x hx).2, fun _ i rest e => ?_⟩
    subst e
    simp only [BuildCall.run, setRemap, allInputs_map] at h
    split at h
    · cases h
    split at h
    · cases h
    obtain ⟨ts, hts, h⟩ := Res.bind_eq_ok.1 h
    obtain ⟨⟨⟩, _, h⟩ := Res.bind_eq_ok.1 h
    obtain ⟨⟨⟩, hs, _⟩ := Res.bind_eq_ok.1 h
    have hpt : Ty.PlanTypeList ts := planTypeList_of_mem (hg i ts (by simp) hts)
    refine ⟨ts, hts, fun j hj => ?_⟩
    obtain ⟨us, hu, he⟩ := sameTypes_erase hpt hs j hj
    exact ⟨us, hu, within_of_erase he⟩
  | scan ns t =>
    cases ha
    simp only [Rel.ExprsGood, Rel.PlainRows]
    refine ⟨fun _ e => ?_, trivial, fun _ e => ?_⟩ <;> cases e
  | virt ns rows =>
    obtain ⟨row, rest, ts, rfl, hl, hts, rfl⟩ := ha
    simp only [Rel.ExprsGood, Rel.PlainRows]
    refine ⟨?_, trivial, ?_⟩
    · intro rows' e row' hrow
      cases e
      exact (hg row' hrow).1
    · intro rows' e row' hrow
      cases e
      simp only [BuildCall.run, virtualTableRemap] at h
      rw [if_neg (by simpa using hl)] at h
      obtain ⟨⟨⟩, -, h⟩ := Res.bind_eq_ok.1 h
      obtain ⟨ts', hts', h⟩ := Res.bind_eq_ok.1 h
      obtain ⟨⟨⟩, hrows, h⟩ := Res.bind_eq_ok.1 h
      rw [mapL_forall₂.2 hts] at hts'
      cases hts'
      have hpt : ∀ t ∈ ts, t.PlanType := by
        intro t ht
        have : ∃ e ∈ row, e.getType = .ok t := by
          clear * - hts ht
          induction hts with
          | nil => cases ht
          | cons h1 _ ih =>
            rcases List.mem_cons.1 ht with rfl | ht
            · exact ⟨_, by simp, h1⟩
            · obtain ⟨e, he, h⟩ := ih ht
              exact ⟨e, List.mem_cons_of_mem _ he, h⟩
        obtain ⟨e, he, h⟩ := this
        exact (hg row (by simp)).2.2 e he t h
      rcases List.mem_cons.1 hrow with rfl | hrow
      · refine ⟨ts, by rw [types_mapL]; exact mapL_forall₂.2 hts, ?_⟩
        exact within_of_erase rfl
      · obtain ⟨pre, post, hpre, hf⟩ := (checkRows_iff ts hpt rest).1 hrows row' hrow
        have hlen : row'.length = ns.length := (hg row' (by simp [hrow])).2.1
        have hpost : post = [] := by
          have h1 := hf.length_eq
          have h2 := hts.length_eq
          rw [hpre, List.length_append] at h2
          exact List.length_eq_zero_iff.1 (by omega)
        subst hpost
        rw [List.append_nil] at hpre
        subst hpre
        clear * - hf
        induction hf with
        | nil => exact ⟨[], rfl, .nil⟩
        | @cons e t es ts h1 _ ih =>
          obtain ⟨u, hu, hs⟩ := h1
          obtain ⟨us, hus, hw⟩ := ih
          exact ⟨u :: us, by simp [Expr.getTypes, hu, hus],
            .cons ⟨same_sameKind hs.symm, (isNullable_same hs.symm).1⟩ hw⟩
  | write i op ns t =>
    obtain ⟨x, rfl, rfl⟩ := ha
    simp only [Rel.ExprsGood, Rel.PlainRows]
    exact ⟨(hi x rfl).1, (hi x rfl).2, fun e => by cases e⟩
  | ctas i ns t =>
    obtain ⟨x, rfl, rfl⟩ := ha
    simp only [Rel.ExprsGood, Rel.PlainRows]
    refine ⟨(hi x rfl).1, (hi x rfl).2, fun _ => ?_⟩
    simp only [BuildCall.run, ctasRemap] at h
    obtain ⟨us, hus, -⟩ := Res.bind_eq_ok.1 h
    exact ⟨us, hus, hg x us rfl hus⟩

/-- So does `AggregateColumns`. -/
theorem C121_aggregateColumns (s : Shape) (i : Rel) (ts : List Ty) (ms : List Measure)
    (cols : List Int32) (r : Rel) (h : aggregateByColumns (some i) ms cols = .ok r)
    (ht : i.recordType = .ok ts) (hc : Countable ts) (hne : cols ≠ []) (hl : cols.length < 2 ^ 32)
    (hi : i.ExprsGood s ∧ i.PlainRows) : r.ExprsGood s ∧ r.PlainRows := by
  obtain ⟨es, refs, rfl, hes, hrefs⟩ := (C71_aggregateColumns i ts ht hc ms cols hne hl).2 r h
  simp only [Rel.ExprsGood, Rel.PlainRows]
  refine ⟨⟨hi.1, ts, ht, ?_⟩, hi.2, by simp, by simpa using hrefs⟩
  clear * - hes
  induction hes with
  | nil => exact ⟨by simp [Expr.CheckedList], by simp [EPlain.CarefulList]⟩
  | @cons c e _ _ h1 _ ih =>
    obtain ⟨t, ⟨h0, hget⟩, rfl⟩ := h1
    have hstep : StepTo (.field c) (s.at ts).row t :=
      .field _ _ _ _ _ _ (Int.toNat_of_nonneg h0).symm hget
    have hfirm : ¬ (s.at ts).row.IsNullable := by
      simp [Shape.at, Ty.IsNullable, Ty.nullability, NullabilityRequired, NullabilityNullable]
    simp only [Shape.Good, Expr.CheckedList, EPlain.CarefulList, Expr.Checked, Expr.Careful,
      ERoot.Checked, ERoot.Careful, ERoot.HasType, true_and]
    exact ⟨⟨⟨_, _, t, rfl, rfl, rfl, .step _ _ _ _ _ hstep (.done _)⟩, ih.1⟩,
      .inr ⟨_, _, t, rfl, rfl, .step _ _ _ _ _ hfirm hstep (.done _)⟩, ih.2⟩

/-- **C121 (builder).** Every row of a relation made by builder calls belongs to its record type. -/
theorem C121_built (g : Engine) (s : Shape) (r : Rel) (vs : List Val) (out : List Ty) (hg : g.Fits s)
    (hb : Assembled s r) (h : r.Yields g vs) (ho : r.recordType = .ok out) : Val.InTypes vs out := by
  have key : r.ExprsGood s ∧ r.PlainRows := by
    clear h ho
    induction hb with
    | call c m r h _ parts ih => exact C121_call s c m r h ih parts
    | columns i ts ms cols r h ht hc hne hl _ ih =>
      exact C121_aggregateColumns s i ts ms cols r h ht hc hne hl ih
  exact yields_inTypes g s hg r key.1 key.2 vs out h ho

/-! ## Where the stated record type is wrong -/

/-- an engine: tables may hold any row of their schema, masks keep the first column, no keys match,
undecoded extensions put out a null -/
def exEngine : Engine where
  world := exWorld
  stored := fun t _ vs => Val.InTypes vs t.types
  mask := fun _ us vs => vs = us.take 1
  keys := fun _ _ _ => False
  ext := fun d ins vs =>
    match d with
    | .custom f _ => Val.InTypes vs (f ins)
    | .undecoded _ => vs = [.null]

theorem exEngine_fits : exEngine.Fits exShape where
  world := fun vs ts h => ⟨by
      simp only [Engine.at, Shape.at, Val.InType]
      exact h, exWorld_fits.outer, exWorld_fits.lam, exWorld_fits.rows⟩
  stored := fun _ _ _ h => h
  ext := fun _ _ _ _ h => h

/-- a table with one column of type i32 -/
def exInts (n : Nullability) : Rel :=
  .read {} { schema := { names := ["a"], types := [.prim .i32 n 0] } } (.named ["t"] none)

/-- a value of type i32 -/
def exFive : Val := .simple (.prim .i32 NullabilityRequired 0) 5

theorem exInts_yields (n : Nullability) (v : Val) (h : v.InType (.prim .i32 n 0)) :
    (exInts n).Yields exEngine [v] := by
  refine ⟨[v], ?_, rfl⟩
  simp only [exInts, Rel.Makes]
  exact ⟨[v], by simpa [exEngine, Val.InTypes] using h, .inl rfl, rfl⟩

theorem exInts_type (n : Nullability) : (exInts n).recordType = .ok [.prim .i32 n 0] := rfl

theorem exFive_in (n : Nullability) : exFive.InType (.prim .i32 n 0) := by
  simp [exFive, Val.InType, Ty.Leaf, Ty.SameKind, Ty.Same, Ty.withNullability]

theorem exInts_good (n : Nullability) : (exInts n).ExprsGood exShape := by
  simp [exInts, Rel.ExprsGood]

theorem null_not_required : ¬ Val.InType .null (.prim .i32 NullabilityRequired 0) := by
  simp [Val.InType, Ty.IsNullable, Ty.nullability, NullabilityRequired, NullabilityNullable]

/-- A left hash join: rows without match are filled up with null, but the column of the right input is
said to be required. -/
theorem C121_negation_hash : ¬ C121_statement := by
  intro h
  have := h exEngine exShape
    (.hashJoin {} (exInts NullabilityRequired) (exInts NullabilityRequired) [] .nil 3 none)
    [exFive, .null] _ exEngine_fits
    (by simp only [Rel.ExprsGood]; exact ⟨exInts_good _, exInts_good _⟩)
    (by
      refine ⟨[exFive, .null], ?_, rfl⟩
      simp only [Rel.Makes]
      refine ⟨_, _, rfl, rfl, .inr ⟨[exFive], exInts_yields _ _ (exFive_in _), ?_, rfl⟩, .inl rfl⟩
      rintro ⟨b, -, h⟩
      exact h) rfl
  exact null_not_required this.2.1

/-- A union whose second input has a nullable column. -/
theorem C121_negation_union : ¬ C121_statement := by
  intro h
  have := h exEngine exShape
    (.set {} [exInts NullabilityRequired, exInts NullabilityNullable] 6 none)
    [.null] _ exEngine_fits
    (by simp only [Rel.ExprsGood, Rel.AllExprsGood]; exact ⟨exInts_good _, exInts_good _, trivial⟩)
    (by
      refine ⟨[.null], ?_, rfl⟩
      simp only [Rel.Makes, Rel.AnyMakes]
      exact .inr (.inl (exInts_yields NullabilityNullable _ rfl))) rfl
  exact null_not_required this.1

/-- Grouping by a required column and by nothing: the row of the second set has null in the column,
and the number of the set follows. -/
theorem C121_negation_grouping : ¬ C121_statement := by
  intro h
  have := h exEngine exShape
    (.aggregate {} (exInts NullabilityRequired) []
      [.fieldRef .rootReference (.seg (.structField 0 .nil)) (some (.prim .i32 NullabilityRequired 0))]
      [[0], []] none)
    [.null, .simple (.prim .i32 NullabilityRequired 0) 1] _ exEngine_fits
    (by
      simp only [Rel.ExprsGood]
      refine ⟨exInts_good _, _, exInts_type _, ?_⟩
      simp only [Shape.Good, Expr.CheckedList, EPlain.CarefulList, Expr.Checked, Expr.Careful,
        ERoot.Checked, ERoot.Careful, ERoot.HasType, true_and, and_true]
      exact ⟨⟨_, _, _, rfl, rfl, rfl, .step _ _ _ _ _ (.field 0 _ _ _ _ _ rfl rfl) (.done _)⟩,
        .inr ⟨_, _, _, rfl, rfl, .step _ _ _ _ _ (by
          simp [Shape.at, Ty.IsNullable, Ty.nullability, NullabilityRequired, NullabilityNullable])
          (.field 0 _ _ _ _ _ rfl rfl) (.done _)⟩⟩)
    (by
      refine ⟨_, ?_, rfl⟩
      simp only [Rel.Makes]
      exact ⟨1, [], [.null], [], rfl, .inr ⟨rfl, rfl⟩, .nil, rfl⟩) rfl
  exact null_not_required this.1

/-- A projection mask that keeps the first of two columns. -/
theorem C121_negation_mask : ¬ C121_statement := by
  intro h
  have := h exEngine exShape
    (.read {} { schema := { names := ["a", "b"], types := [.prim .i32 2 0, .prim .i32 2 0] },
                projection := some 0 } (.named ["t"] none))
    [exFive] _ exEngine_fits (by simp [Rel.ExprsGood])
    (by
      refine ⟨_, ?_, rfl⟩
      simp only [Rel.Makes]
      exact ⟨[exFive, exFive], by
        simp only [exEngine, Val.InTypes]; exact ⟨exFive_in _, exFive_in _, trivial⟩, .inl rfl, rfl⟩) rfl
  exact absurd (inTypes_length this) (by decide)

/-- A virtual table with a short second row, which the builder accepts. -/
theorem C121_negation_virtual :
    ∃ r, virtualTableRemap ["a", "b"] none [[exSeven, exSeven], [exSeven]] = .ok r ∧
      ∃ vs out, r.ExprsGood exShape ∧ r.Yields exEngine vs ∧ r.recordType = .ok out ∧
        vs.length < out.length := by
  refine ⟨.read {} { schema := { names := ["a", "b"], types := [.prim .i32 NullabilityRequired 0,
      .prim .i32 NullabilityRequired 0] } } (.virt [[exSeven, exSeven], [exSeven]]), ?_,
    [.simple (.prim .i32 NullabilityRequired 0) 0],
    [.prim .i32 NullabilityRequired 0, .prim .i32 NullabilityRequired 0], ?_, ⟨_, ?_, rfl⟩, rfl, ?_⟩
  · simp [virtualTableRemap, checkRemap, checkMapping, exSeven, Expr.getType, Lit.getType, checkRows,
      checkRowTypes, Res.index, Ty.equals]
  · simp only [Rel.ExprsGood]
    intro rows e row hrow
    cases e
    have : ∀ x ∈ row, x = exSeven := by
      simp only [List.mem_cons, List.not_mem_nil, or_false] at hrow
      rcases hrow with rfl | rfl <;> simp
    clear hrow
    induction row with
    | nil => exact ⟨by simp [Expr.CheckedList], by simp [EPlain.CarefulList]⟩
    | cons x xs ih =>
      obtain ⟨h1, h2⟩ := ih fun y hy => this y (List.mem_cons_of_mem _ hy)
      rw [this x (by simp)]
      simp only [Shape.Good, Expr.CheckedList, EPlain.CarefulList]
      exact ⟨⟨by simp [exSeven, Expr.Checked, Lit.Coherent, Ty.Leaf], h1⟩,
        by simp [exSeven, Expr.Careful], h2⟩
  · simp only [Rel.Makes]
    refine ⟨_, ⟨[exSeven], by simp, ?_⟩, .inl rfl, rfl⟩
    simp [Expr.YieldsList, exSeven, Expr.Yields, Lit.denote, Ty.withNullability, Engine.at, exEngine,
      exWorld]
  · decide

/-- A table created with a required column for rows that may hold null, which the builder accepts. -/
theorem C121_negation_ctas :
    ∃ r, ctasRemap (some (exInts NullabilityNullable)) none ["u"]
        { names := ["a"], types := [.prim .i32 NullabilityRequired 0] } = .ok r ∧
      r.ExprsGood exShape ∧ r.Yields exEngine [.null] ∧
      r.recordType = .ok [.prim .i32 NullabilityRequired 0] := by
  refine ⟨_, rfl, ?_, ⟨[.null], ?_, rfl⟩, rfl⟩
  · simp only [Rel.ExprsGood]
    exact exInts_good _
  · simp only [Rel.Makes]
    exact exInts_yields NullabilityNullable _ rfl

/-- An extension that could not be decoded is said to put out the rows of its input. -/
theorem C121_negation_undecoded : ¬ C121_statement := by
  intro h
  have := h exEngine exShape (.extSingle {} (exInts NullabilityRequired) (.undecoded none))
    [.null] _ exEngine_fits (by simp [Rel.ExprsGood])
    (by
      refine ⟨[.null], ?_, rfl⟩
      simp only [Rel.Makes]
      exact ⟨_, rfl, rfl⟩) rfl
  exact null_not_required this.1

/-! ## A case -/

/-- the rows of two tables joined, with a column added; columns picked and grouped -/
def exJoined : Rel :=
  .project { mapping := some [2, 1] }
    (.join {} (exInts NullabilityRequired) (exInts NullabilityRequired) sampleCond .nil .left none)
    [exSeven] none

/-- It is made by builder calls, its columns are the literal and the nullable column of the right
table. -/
example : Assembled exShape exJoined ∧
    exJoined.recordType = .ok [.prim .i32 NullabilityRequired 0, .prim .i32 NullabilityNullable 0] := by
  refine ⟨?_, rfl⟩
  have ht : ∀ n, Assembled exShape (exInts n) := fun n =>
    .call (.scan ["t"] { names := ["a"], types := [.prim .i32 n 0] }) none _ rfl
      (fun _ h => by cases h) trivial
  refine .call (.project (some (.join {} (exInts NullabilityRequired) (exInts NullabilityRequired)
      sampleCond .nil .left none)) [exSeven]) (some [2, 1]) _ rfl ?_ ?_
  · rintro x h
    cases h
    refine .call (.join (some (exInts NullabilityRequired)) (some (exInts NullabilityRequired))
      sampleCond .nil .left) none _ ?_ ?_ trivial
    · simp [BuildCall.run, joinAndFilterRemap, sampleCond, Expr.isNil, yieldsBoolean, Expr.getType,
        Ty.withNullability, Ty.equals, postFilterOk, checkRemap, checkMapping]
      rfl
    · rintro x (h | h) <;> cases h <;> exact ht _
  · rintro x ts h -
    simp only [Shape.Good, Expr.CheckedList, EPlain.CarefulList]
    simp [exSeven, Expr.Checked, Lit.Coherent, Ty.Leaf, Expr.Careful]

/-- It has the row (7, null). -/
theorem exJoined_yields : exJoined.Yields exEngine [.simple (.prim .i32 NullabilityRequired 0) 0, .null] := by
  refine ⟨[exFive, .null, .simple (.prim .i32 NullabilityRequired 0) 0], ?_,
    .cons ⟨by decide, rfl⟩ (.cons ⟨by decide, rfl⟩ .nil)⟩
  simp only [exJoined, Rel.Makes]
  refine ⟨[exFive, .null], _, ⟨[exFive, .null], ?_, rfl⟩, ?_, rfl⟩
  · refine ⟨_, _, rfl, rfl, .inr ⟨[exFive], exInts_yields _ _ (exFive_in _), ?_, rfl⟩, .inl rfl⟩
    rintro ⟨b, ⟨ds, hb, rfl⟩, h⟩
    simp only [exInts, Rel.Makes] at hb
    obtain ⟨us, hus, -, rfl⟩ := hb
    have hin : Val.InTypes b [.prim .i32 NullabilityRequired 0] := hus
    rcases h with h | h
    · cases h
    · simp only [sampleCond, Expr.Yields, ERoot.Yields] at h
      obtain ⟨x, rfl, h⟩ := h
      cases h with
      | field f i fs y ss v hi hx h =>
        cases h
        have : i = 1 := by
          have : (1 : Int) = i := hi
          omega
        subst this
        match b, hin with
        | [u], hin =>
          simp only [Val.InTypes] at hin
          simp only [List.cons_append, List.nil_append, List.getElem?_cons_succ,
            List.getElem?_cons_zero, Option.some.injEq] at hx
          subst hx
          simp [Val.InType] at hin
  · simp [Expr.YieldsList, exSeven, Expr.Yields, Lit.denote, Ty.withNullability, Engine.at, exEngine,
      exWorld]

end Verif

import Verif.Lemmas.Rel
/-!
# Properties of relations: C33, C34, C35, C36
-/

namespace Verif

/-! ## C33 -/

/-- **C33.** With computable output columns `cols`: if every index of the mapping lies within them,
`Remap` succeeds and the i-th output column of the result is column `m[i]`; if some index does not,
it returns an error. (The column counts fit the `int32` in which the code counts them.) -/
theorem C33_remap_exact (r : Rel) (m : List Int32) (direct cols : List Ty)
    (hd : r.directOutputSchema = .ok direct) (hc : r.recordType = .ok cols)
    (hds : Countable direct) (hcs : Countable cols) :
    ((∀ i ∈ m, InBounds cols.length i) →
      ∃ r' out, r.remap m = .ok r' ∧ r'.recordType = .ok out ∧ Picks cols m out) ∧
    ((∃ i ∈ m, ¬ InBounds cols.length i) → r.remap m = .err) := by
  have hp := (recordType_picks hd hds).1 hc
  have hl := hp.length_eq
  have hch := remap_char hd hds hc hcs m
  refine ⟨fun h => ?_, hch.2⟩
  obtain ⟨m', hm'⟩ := (picks_exists (src := effective r direct.length)).2 (by rw [← hl]; exact h)
  obtain ⟨out, ho⟩ := picks_exists.2 h
  refine ⟨_, out, hch.1 m' hm', ?_, ho⟩
  rw [recordType_picks (direct := direct) (by rw [direct_setMapping]; exact hd) hds, effective_stored]
  exact hp.trans ho hm'

/-- **C33 (composition).** If remapping by `m1` gives `r1`, then remapping `r1` by `m2` gives exactly
what remapping `r` once by the composition gives. -/
theorem C33_remap_compose (r r1 : Rel) (m1 m2 m12 : List Int32) (direct cols : List Ty)
    (hd : r.directOutputSchema = .ok direct) (hc : r.recordType = .ok cols)
    (hds : Countable direct) (hcs : Countable cols) (hm1 : m1.length < 2 ^ 31)
    (h1 : r.remap m1 = .ok r1) (h12 : Picks m1 m2 m12) :
    ∃ r2, r1.remap m2 = .ok r2 ∧ r.remap m12 = .ok r2 := by
  have hp := (recordType_picks hd hds).1 hc
  have hch := remap_char hd hds hc hcs m1
  have hin : ∀ i ∈ m1, InBounds cols.length i := by
    intro i hi
    by_contra hn
    rw [hch.2 ⟨i, hi, hn⟩] at h1
    cases h1
  obtain ⟨e1, he1⟩ := (picks_exists (src := effective r direct.length)).2
    (by rw [← hp.length_eq]; exact hin)
  have hr1 := hch.1 e1 he1
  rw [h1] at hr1
  cases hr1
  obtain ⟨out1, ho1⟩ := picks_exists.2 hin
  have hd1 : (r.setMapping (stored direct.length e1)).directOutputSchema = .ok direct := by
    rw [direct_setMapping]; exact hd
  have hc1 : (r.setMapping (stored direct.length e1)).recordType = .ok out1 := by
    rw [recordType_picks hd1 hds, effective_stored]
    exact hp.trans ho1 he1
  have hl1 := ho1.length_eq
  have hch1 := remap_char hd1 hds hc1 (by omega) m2
  obtain ⟨e2, he2⟩ := (picks_exists (src := e1)).2
    (by rw [he1.length_eq]; exact picks_exists.1 ⟨m12, h12⟩)
  have h12' : Picks (effective r direct.length) m12 e2 := he1.trans he2 h12
  refine ⟨_, hch1.1 e2 (by rw [effective_stored]; exact he2), ?_⟩
  rw [(remap_char hd hds hc hcs m12).1 e2 h12', setMapping_setMapping]

/-- a scan of two columns under a fetch, output swapped -/
def sampleFetch : Rel :=
  .fetch { mapping := some [1, 0] }
    (.read {} { schema := { names := ["a", "b"], types := [.prim .i32 1 0, .prim .string 2 0] } }
      (.named ["t"] none)) 0 10 none

example : sampleFetch.directOutputSchema = .ok [.prim .i32 1 0, .prim .string 2 0] ∧
    sampleFetch.recordType = .ok [.prim .string 2 0, .prim .i32 1 0] ∧
    (∃ r1, sampleFetch.remap [1, 1] = .ok r1) ∧ Picks [(1 : Int32), 1] [0] [1] :=
  ⟨rfl, rfl, ⟨_, rfl⟩, by unfold Picks; simp⟩

/-! ## C34 -/

/-- **C34 (full statement, false).** -/
def C34_statement : Prop :=
  ∀ (r : Rel) (m : List Int32), (r.receiverAfterRemap m).recordType = r.recordType

/-- **C34, partial.** `Remap` leaves the receiver as it was, if the receiver takes an input relation
or `Remap` does not succeed. Missing: a successful `Remap` of a leaf. -/
theorem C34_receiver_unchanged_partial (r : Rel) (m : List Int32)
    (h : ¬ r.IsLeaf ∨ ∀ r', r.remap m ≠ .ok r') : r.receiverAfterRemap m = r := by
  unfold Rel.receiverAfterRemap
  split
  · rename_i new hn
    rcases h with h | h
    · cases r <;> first | rfl | exact absurd trivial h
    · exact absurd hn (h new)
  · rfl

example : ¬ sampleFetch.IsLeaf ∧ ∃ r', sampleFetch.remap [0] = .ok r' := ⟨id, _, rfl⟩

/-- **C34 is false of the code** for leaf relations: `Copy` returns the receiver, so `Remap` changes
the output of the relation it was called on. -/
theorem C34_negation : ¬ C34_statement := by
  intro h
  have := h (.read {} { schema := { names := ["a", "b"], types := [.prim .i32 1 0, .prim .string 2 0] } }
      (.named ["t"] none)) [1]
  have h2 := congrArg (fun x => match x with | Res.ok l => l.length | _ => 0) this
  exact absurd h2 (by decide)

/-! ## C35 -/

/-- **C35 (full statement, false).** -/
def C35_statement : Prop := ∀ call m, BuildsWell call m

/-- **C35, partial.** The covered calls (see `BuildCall.Covered`) do what C35 demands. Missing: a
filter over an input with an output mapping, writes with a mapping, tables with fewer columns than
the input, and project expressions without a type. -/
theorem C35_builds_well_partial (call : BuildCall) (m : Option (List Int32)) (h : call.Covered m) :
    BuildsWell call m := by
  refine ⟨fun r hr => ?_, fun r0 cols is h0 hcols hm hbad r' hr' => ?_⟩
  · obtain ⟨hmap, D, hD, hb⟩ := run_sound call m h r hr
    obtain ⟨ts, hts, hl⟩ := recordType_of_direct hD (by rw [hmap]; exact hb)
    exact ⟨ts, hts, fun is his => hl is (by rw [hmap, his])⟩
  · obtain ⟨hmap, D, hD, hb⟩ := run_sound call m h r' hr'
    have hn := run_none call m r' hr'
    rw [h0] at hn
    cases hn
    have : (r'.setMapping none).recordType = .ok D := by
      unfold Rel.recordType
      rw [direct_setMapping, hD, Res.ok_bind]
      exact common_remap_none (by rw [common_setMapping]) _
    rw [this] at hcols
    cases hcols
    obtain ⟨i, hi, hni⟩ := hbad
    exact hni (hb is hm i hi)

/-- a scan of one required i32 and one required boolean column -/
def sampleScan : Rel :=
  .read {} { schema := { names := ["a", "b"], types := [.prim .i32 2 0, .prim .boolean 2 0] } }
    (.named ["t"] none)

/-- a reference to its boolean column -/
def sampleCond : Expr := .fieldRef .rootReference (.seg (.structField 1 .nil)) (some (.prim .boolean 2 0))

example : ((BuildCall.join (some sampleScan) (some sampleScan) sampleCond .nil .left).run
    (some [3, 0])).isOk = true ∧
    (BuildCall.join (some sampleScan) (some sampleScan) sampleCond .nil .left).Covered (some [3, 0]) :=
  ⟨by simp [BuildCall.run, joinAndFilterRemap, sampleCond, Expr.isNil, yieldsBoolean, Expr.getType,
      Ty.withNullability, Ty.equals, postFilterOk, sampleScan, Rel.directOutputSchema, Rel.common,
      RelCommon.remap, checkRemap, checkMapping, fieldCount, asNullable], trivial⟩

/-- **C35 (in-range mappings are accepted).** For the covered calls (with exactly as many table as
input columns for a create-table-as-select): if the call succeeds without a mapping and its column
count fits an `int32`, it succeeds with every mapping into these columns. -/
theorem C35_accepts (call : BuildCall) (is : List Int32) (h : call.Covered (some is))
    (hct : ∀ i ns s ts, call = .ctas (some i) ns s → i.recordType = .ok ts →
      ts.length = s.types.length)
    (r0 : Rel) (cols : List Ty) (h0 : call.run none = .ok r0) (hc : r0.recordType = .ok cols)
    (hcs : Countable cols) (hb : ∀ i ∈ is, InBounds cols.length i) :
    ∃ r, call.run (some is) = .ok r := by
  obtain ⟨hmap, D, hD, -⟩ := run_sound call none (by
    cases call with
    | filter i e => cases i <;> exact h
    | write i op ns s => intro is h'; cases h'
    | ctas i ns s => cases i <;> exact h
    | _ => exact h) r0 h0
  have hc' : r0.recordType = .ok D := by
    unfold Rel.recordType
    rw [hD, Res.ok_bind]
    exact common_remap_none hmap _
  rw [hc] at hc'
  cases hc'
  exact run_complete call (some is) h hct r0 cols h0 hD
    (check_of_inBounds hcs (by rintro _ ⟨⟩; exact hb))

example : (BuildCall.fetch (some sampleScan) 0 5).Covered (some [1, 1]) ∧
    (∃ r0, (BuildCall.fetch (some sampleScan) 0 5).run none = .ok r0 ∧
      r0.recordType = .ok [.prim .i32 2 0, .prim .boolean 2 0]) ∧
    ∀ i ∈ [(1 : Int32), 1], InBounds 2 i :=
  ⟨trivial, ⟨_, rfl, rfl⟩, by unfold InBounds; decide⟩

/-- **C35 is false of the code (filter)**: a filter is checked against the direct schema of its
input, not against its output columns. Here the input has one output column and the accepted filter
refers to a second one, so that `RecordType` panics. -/
theorem C35_negation_filter : ¬ C35_statement := by
  intro h
  obtain ⟨h1, -⟩ := h (.filter (some (sampleScan.setMapping (some [1]))) sampleCond) (some [1])
  obtain ⟨ts, hts, -⟩ := h1 (.filter { mapping := some [1] } (sampleScan.setMapping (some [1])) sampleCond none)
    (by simp [BuildCall.run, filterRemap, sampleCond, Expr.isNil, yieldsBoolean, Expr.getType,
      Ty.withNullability, Ty.equals, sampleScan, Rel.setMapping, Rel.withCommon,
      Rel.directOutputSchema, Rel.common, checkRemap, checkMapping, fieldCount])
  have : (Rel.filter { mapping := some [1] } (sampleScan.setMapping (some [1])) sampleCond none).recordType
      = .panic := rfl
  rw [this] at hts
  cases hts

/-- **C35 is false of the code (write)**: a write without output accepts a mapping into its input's
columns, though it has no columns itself. -/
theorem C35_negation_write : ¬ C35_statement := by
  intro h
  obtain ⟨h1, -⟩ := h (.write (some sampleScan) 1 ["t"] { names := [], types := [] }) (some [0])
  obtain ⟨ts, hts, -⟩ := h1 _ rfl
  cases hts

/-- **C35 is false of the code (create table as select)**: the mapping is checked against the input,
not against the table schema that makes up the output. -/
theorem C35_negation_ctas : ¬ C35_statement := by
  intro h
  obtain ⟨h1, -⟩ := h (.ctas (some sampleScan) ["t"] { names := ["x"], types := [.prim .i8 1 0] }) (some [1])
  obtain ⟨ts, hts, -⟩ := h1 _ rfl
  cases hts

/-- **C35 is false of the code (project)**: a nil expression is accepted. -/
theorem C35_negation_project : ¬ C35_statement := by
  intro h
  obtain ⟨h1, -⟩ := h (.project (some sampleScan) [.nil]) none
  obtain ⟨ts, hts, -⟩ := h1 _ rfl
  cases hts

/-! ## C36 -/

/-- **C36.** If the inputs of a join have the columns `ls` and `rs` (plan types), the join has the
columns prescribed for its type: as they are without an output mapping, and selected by the mapping
otherwise. -/
theorem C36_join_columns (c : RelCommon) (l r : Rel) (e p : Expr) (ty : JoinType) (a : Option Nat)
    (ls rs : List Ty) (hl : l.recordType = .ok ls) (hr : r.recordType = .ok rs)
    (hpl : ∀ t ∈ ls, t.PlanType) (hpr : ∀ t ∈ rs, t.PlanType) :
    ∃ out, JoinColumns ty ls rs out ∧
      (c.mapping = none → (Rel.join c l r e p ty a).recordType = .ok out) ∧
      (∀ m cols, c.mapping = some m →
        ((Rel.join c l r e p ty a).recordType = .ok cols ↔ Picks out m cols)) := by
  have hn : ∀ ts : List Ty, (∀ t ∈ ts, t.PlanType) → NullableCols ts (ts.map asNullable) := by
    intro ts h
    unfold NullableCols
    rw [List.forall₂_map_right_iff, List.forall₂_same]
    intro t ht
    have := h t ht
    cases t <;>
      simp_all [NullableOf, asNullable, Ty.withNullability, Ty.nullability, Ty.Same, Ty.erase,
        Ty.PlanType]
  have key : ∃ out, JoinColumns ty ls rs out ∧
      (Rel.join c l r e p ty a).directOutputSchema = .ok out := by
    have hl' : (l.directOutputSchema >>= l.common.remap) = .ok ls := hl
    have hr' : (r.directOutputSchema >>= r.common.remap) = .ok rs := hr
    cases ty <;> simp only [Rel.directOutputSchema, JoinColumns, hl', hr', Res.ok_bind]
    case outer =>
      exact ⟨_, ⟨_, _, hn ls hpl, hn rs hpr, rfl⟩, by simp⟩
    case left => exact ⟨_, ⟨_, hn rs hpr, rfl⟩, rfl⟩
    case leftSingle => exact ⟨_, ⟨_, hn rs hpr, rfl⟩, rfl⟩
    case right => exact ⟨_, ⟨_, hn ls hpl, rfl⟩, rfl⟩
    case rightSingle => exact ⟨_, ⟨_, hn ls hpl, rfl⟩, rfl⟩
    all_goals exact ⟨_, by first | rfl | trivial, rfl⟩
  obtain ⟨out, ho, hd⟩ := key
  refine ⟨out, ho, fun hm => ?_, fun m cols hm => ?_⟩
  · unfold Rel.recordType
    rw [hd, Res.ok_bind]
    exact common_remap_none hm _
  · unfold Rel.recordType
    rw [hd, Res.ok_bind]
    exact common_remap_some hm

example : sampleScan.recordType = .ok [.prim .i32 2 0, .prim .boolean 2 0] ∧
    sampleFetch.recordType = .ok [.prim .string 2 0, .prim .i32 1 0] ∧
    (Rel.join {} sampleScan sampleFetch sampleCond .nil .left none).recordType =
      .ok [.prim .i32 2 0, .prim .boolean 2 0, .prim .string 1 0, .prim .i32 1 0] :=
  ⟨rfl, rfl, rfl⟩

end Verif

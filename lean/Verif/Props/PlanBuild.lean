import Verif.Lemmas.PlanBuild
import Verif.Props.Writable
import Verif.Props.Extended
/-!
# C112: plans made with the plan builder
-/

namespace Verif

/-- **C112, what calls return.** A call that succeeds returns a relation of the kind asked for, with the inputs,
expressions, settings and output mapping given, and nothing else. -/
theorem C112_described (c : BuildCall) (m : Option (List Int32)) (r : Rel) (h : c.run m = .ok r) :
    c.Asks m r := run_asks c m r h

/-- **C112, tables.** An empty virtual table has the columns given and no rows; a table of an extension its
detail; an Iceberg table its location and the snapshot asked for. Each has the schema given, no filter, no mask
and no output mapping. -/
theorem C112_tables (s : NamedStruct) (names : List String) (ts : List Ty) (d : Option Nat) (uri id : String)
    (t : Int64) :
    emptyVirtualTable names ts =
      .ok (.read ⟨none, none, none⟩ ⟨⟨names, NullabilityRequired, 0, ts⟩, .nil, .nil, none, none⟩ (.virt [])) ∧
    extensionTable d s = .ok (.read ⟨none, none, none⟩ ⟨s, .nil, .nil, none, none⟩ (.extTable d)) ∧
    (∀ r, icebergTable uri none s = .ok r →
      r = .read ⟨none, none, none⟩ ⟨s, .nil, .nil, none, none⟩ (.iceberg uri 0 "" none) ∧
      r.says.snapshotId = none ∧ r.says.snapshotTime = none) ∧
    (∀ r, icebergTable uri (some (.id id)) s = .ok r → id ≠ "" →
      r = .read ⟨none, none, none⟩ ⟨s, .nil, .nil, none, none⟩ (.iceberg uri 0 id none) ∧
      r.says.snapshotId = some id ∧ r.says.snapshotTime = none) ∧
    (∀ r, icebergTable uri (some (.timestamp t)) s = .ok r → t ≠ 0 →
      r = .read ⟨none, none, none⟩ ⟨s, .nil, .nil, none, none⟩ (.iceberg uri t "" none) ∧
      r.says.snapshotId = none ∧ r.says.snapshotTime = some t) := by
  refine ⟨rfl, rfl, ?_, ?_, ?_⟩
  · rintro r h
    cases h
    exact ⟨rfl, rfl, rfl⟩
  · rintro r h hi
    cases h
    exact ⟨rfl, by simp [Rel.says, BaseRead.says, hi], by simp [Rel.says, BaseRead.says, hi]⟩
  · rintro r h hi
    cases h
    exact ⟨rfl, by simp [Rel.says, BaseRead.says], by simp [Rel.says, BaseRead.says, hi]⟩

/-- **C112, extension relations.** They are made exactly from a definition and inputs that are all there; several
inputs are at least one. -/
theorem C112_extensions_made (i : Option Rel) (is : List (Option Rel)) (d : Option ExtDef) (r : Rel) :
    (extensionSingle i d = .ok r ↔ ∃ x y, i = some x ∧ d = some y ∧ r = .extSingle ⟨none, none, none⟩ x y) ∧
    (extensionLeaf d = .ok r ↔ ∃ y, d = some y ∧ r = .extLeaf ⟨none, none, none⟩ y) ∧
    (extensionMulti is d = .ok r ↔
      ∃ xs y, xs ≠ [] ∧ is = xs.map some ∧ d = some y ∧ r = .extMulti ⟨none, none, none⟩ xs y) ∧
    extensionSingle i d ≠ .panic ∧ extensionLeaf d ≠ .panic ∧ extensionMulti is d ≠ .panic := by
  refine ⟨?_, ?_, ?_, ?_, ?_, ?_⟩
  · cases i <;> cases d <;> simp [extensionSingle, eq_comm]
  · cases d <;> simp [extensionLeaf, eq_comm]
  · constructor
    · intro h
      simp only [extensionMulti] at h
      split at h
      · cases h
      rename_i hl
      cases ha : allInputs is with
      | none => simp [ha] at h
      | some xs =>
        simp only [ha] at h
        cases d with
        | none => cases h
        | some d =>
          cases h
          have := allInputs_some ha
          refine ⟨xs, d, ?_, this, rfl, rfl⟩
          rintro rfl
          exact hl (by simp [this])
    · rintro ⟨xs, y, hx, rfl, rfl, rfl⟩
      simp [extensionMulti, allInputs_map, hx]
  · cases i <;> cases d <;> simp [extensionSingle]
  · cases d <;> simp [extensionLeaf]
  · unfold extensionMulti
    split
    · simp
    · cases allInputs is <;> cases d <;> simp

/-- **C112, references.** References to columns made by the builder, for sorting too, can be carried over the
rows of the relation (or of the join) they were made for. Sort fields put nulls last, in ascending order. -/
theorem C112_references (reg : Reg) (l r : Rel) (ls rs : List Ty) (i : Int32) (hl : l.recordType = .ok ls)
    (hr : r.recordType = .ok rs) :
    (∀ e, rootFieldRef l i = .ok e → e.Carried reg (some ls)) ∧
    (∀ e, joinedRecordFieldRef l r i = .ok e → e.Carried reg (some (ls ++ rs))) ∧
    (∀ is ss, sortFields l is = .ok ss →
      List.Forall₂ (fun i s => ∃ e, rootFieldRef l i = .ok e ∧ s = .mk e (.direction 2)) is ss ∧
      ∀ e k, ESort.mk e k ∈ ss → e.Carried reg (some ls) ∧ k ≠ .nil) := by
  refine ⟨fun e h => rootFieldRef_carried reg hl h, fun e h => joinedRef_carried reg hl hr h, fun is ss h => ⟨?_, ?_⟩⟩
  · clear hl hr
    induction is generalizing ss with
    | nil => cases h; exact .nil
    | cons i is ih =>
      simp only [sortFields, Res.bind_eq_ok] at h
      obtain ⟨x, hx, xs, hxs, h⟩ := h
      simp only [Res.ok.injEq] at h
      subst h
      exact .cons ⟨x, hx, rfl⟩ (ih xs hxs)
  · intro e k hm
    obtain ⟨h1, rfl⟩ := sortFields_carried reg hl h e k hm
    exact ⟨h1, by simp⟩

/-- **C112 (partial), relations.** A relation made by calls of the builder, from expressions, types, measures and
definitions that can be carried, is written, and read back as the same. Missing: writes (their output mode is
not written, `C112_negation_write`). -/
theorem C112_relations_partial (reg : RelReg) (r : Rel) (h : Built reg r) :
    ∃ m, r.toProto reg.toReg = .ok m ∧ Rel.fromProto reg m = .ok r := by
  obtain ⟨hs, hw⟩ := built_carried h
  obtain ⟨m, hm⟩ := (C110_relations reg.toReg r).2 hw
  exact ⟨m, hm, rel_exact reg r m hs hm⟩

/-- **C112, measures.** A measure made of a function that can be carried, with or without a filter that can be,
has that function and that filter, can be carried, and has the type of the function's results. -/
theorem C112_measure (reg : Reg) (base : Option (List Ty)) (f : AggFn) (filter : Expr)
    (hf : (⟨some f, .nil⟩ : Measure).Carried reg base) (hx : filter = .nil ∨ filter.Carried reg base) :
    (newMeasure (some f) filter).measure = some f ∧ (newMeasure (some f) filter).filter = filter ∧
    (newMeasure (some f) filter).Carried reg base ∧
    (newMeasure (some f) filter).getType = (⟨some f, .nil⟩ : Measure).getType := by
  refine ⟨rfl, rfl, ?_, rfl⟩
  obtain ⟨⟨h1, _⟩, g, hg, h2, h3, h4, _⟩ := hf
  refine ⟨⟨h1, ?_⟩, g, hg, h2, h3, h4, ?_⟩
  · exact (carriedOpt hx).1
  · exact (carriedOpt hx).2

/-- **C112, rows of literals.** A virtual table of literals that can be carried is such a relation. -/
theorem C112_literal_rows (reg : RelReg) (names : List String) (m : Option (List Int32)) (rows : List (List Lit))
    (r : Rel) (h : virtualTableLits names m rows = .ok r)
    (hl : ∀ row ∈ rows, ∀ l ∈ row, l.Sendable ∧ l.Writable ∧ ∀ t, (Expr.lit l).getType = .ok t → t.Carried) :
    Built reg r := by
  refine .call (.virt names (rows.map fun row : List Lit => row.map Expr.lit)) m r h (by simp [BuildCall.Takes]) ?_
  intro row hrow e he
  obtain ⟨row', hr, rfl⟩ := List.mem_map.1 hrow
  obtain ⟨l, hl', rfl⟩ := List.mem_map.1 he
  obtain ⟨h1, h2, h3⟩ := hl row' hr l hl'
  exact ⟨⟨by simpa only [Expr.Sendable] using h1, by simpa only [Expr.Writable] using h2⟩, h3⟩

example : ∃ r, virtualTableLits ["a", "b"] (some [1]) [[exLit7, exLit7], [exLit7, exLit7]] = .ok r ∧
    Built exRelReg r := by
  have h : (Ty.prim .i32 2 0).equals (.prim .i32 2 0) = .ok true := by simp [Ty.equals]
  have h' : virtualTableLits ["a", "b"] (some [1]) [[exLit7, exLit7], [exLit7, exLit7]] =
      .ok (.read ⟨none, some [1], none⟩ { schema := { names := ["a", "b"], types := [.prim .i32 2 0, .prim .i32 2 0] } }
        (.virt [[.lit exLit7, .lit exLit7], [.lit exLit7, .lit exLit7]])) := by
    simp only [virtualTableLits, virtualTableRemap, List.map_cons, List.map_nil]
    rw [if_neg (by simp)]
    simp [checkRemap, checkMapping, Res.mapL_cons, Res.mapL_nil, checkRows, checkRowTypes, Expr.getType, exLit7,
      Lit.getType, Res.index, h]
  refine ⟨_, h', C112_literal_rows _ _ _ _ _ h' ?_⟩
  intro row hr l hl
  simp only [List.mem_cons, List.not_mem_nil, or_false, or_self] at hr
  subst hr
  simp only [List.mem_cons, List.not_mem_nil, or_false, or_self] at hl
  subst hl
  refine ⟨exLit7_sendable, by simp [exLit7, Lit.Writable], ?_⟩
  intro t ht
  cases ht
  simp [Ty.Carried, Ty.Sendable, Ty.PrecisionsOk, Ty.NoCompound, Ty.Writable]

/-- **C112, in full**: a plan the builder makes of relations it made is written and read back as the same. -/
def C112_statement : Prop :=
  ∀ (reg : RelReg) (r : Rel) (others : List Rel) (names urls : List String) (bs : List Binding) (p : Plan),
    Built reg r → (∀ o ∈ others, Built reg o) → (∀ b ∈ bs, b.value.Sendable ∧ b.value.Writable) →
    planWithBindings (some r) names urls bs (others.map some) = .ok p →
    ∃ m, p.toProto (Rel.toProto reg.toReg) = .ok m ∧ Plan.fromProto (Rel.fromProto reg) m = .ok p

theorem built_plan {reg : RelReg} {r : Rel} {names urls : List String} {bs : List Binding} {p : Plan}
    (hr : Built reg r) (hb : ∀ b ∈ bs, b.value.Sendable ∧ b.value.Writable)
    (h : planWithBindings (some r) names urls bs [] = .ok p) :
    p = ⟨[⟨some ⟨r, names⟩, none⟩], bs, urls⟩ ∧ p.Sendable reg ∧ p.Writable reg.toReg := by
  obtain ⟨r', ts, h1, h2, h3, _, h5, h6, h7⟩ := planWithBindings_ok.1 h
  cases h1
  rw [stored_relations] at h5
  obtain ⟨rels, bs', urls'⟩ := p
  simp only [Res.ok.injEq] at h5 h6 h7
  subst h5 h6 h7
  obtain ⟨hs, hw⟩ := built_carried hr
  refine ⟨rfl, ⟨?_, fun b h => (hb b h).1⟩, ?_, fun b h => (hb b h).2⟩
  · intro x hx
    simp only [List.mem_singleton] at hx
    subst hx
    exact .inr ⟨r, names, rfl, hs, fun _ => ⟨ts, h2, h3⟩⟩
  · intro x hx
    simp only [List.mem_singleton] at hx
    subst hx
    simpa [Relation.Writable] using hw

/-- **C112 (partial), plans.** A plan the builder makes of one relation it made, with parameter values that can be
carried, has that relation as its root under the names given; it is written, and read back as the same. Missing:
further relations (`C43_others_lost`) and writes. -/
theorem C112_plan_partial (reg : RelReg) (r : Rel) (names urls : List String) (bs : List Binding) (p : Plan)
    (hr : Built reg r) (hb : ∀ b ∈ bs, b.value.Sendable ∧ b.value.Writable)
    (h : planWithBindings (some r) names urls bs [] = .ok p) :
    p = ⟨[⟨some ⟨r, names⟩, none⟩], bs, urls⟩ ∧
    ∃ m, p.toProto (Rel.toProto reg.toReg) = .ok m ∧ Plan.fromProto (Rel.fromProto reg) m = .ok p := by
  obtain ⟨h1, h2, h3⟩ := built_plan hr hb h
  exact ⟨h1, C110_plan_roundtrip reg p h3 h2⟩

/-- **C112 (partial), with extensions.** The same of the whole plan, with the extension set the expressions were
built against: the plan read has the same relations and every anchor stands for the same. Missing: as in
`C112_plan_partial` and `C23_roundtrip_partial`. -/
theorem C112_extensions_partial (rest : RelReg) (c : Collection) (set : ExtSet) (o : Orders) (r : Rel)
    (names urls : List String) (bs : List Binding) (p : Plan) (version adv : Option Nat)
    (ht : set.Tidy) (hv : set.count .type = 0 ∨ set.count .variation ≤ 1) (ho : o.Of set)
    (hload : ∀ a u, set.urns.get a = some u → c.urnLoaded u = true)
    (hr : Built (rest.ofSet c set) r) (hb : ∀ b ∈ bs, b.value.Sendable ∧ b.value.Writable)
    (h : planWithBindings (some r) names urls bs [] = .ok p) :
    ∃ m p', FullPlan.toProto rest c o ⟨p, set, version, adv⟩ = .ok m ∧ FullPlan.fromProto rest c m = .ok p' ∧
      p'.plan = ⟨[⟨some ⟨r, names⟩, none⟩], bs, urls⟩ ∧ p'.version = version ∧ p'.adv = adv ∧
      ∀ k a, p'.set.decode k a = set.decode k a := by
  obtain ⟨h1, h2, h3⟩ := built_plan hr hb h
  obtain ⟨e, s', e1, _, _, _⟩ := registry_read_back ht hv ho hload
  obtain ⟨m, hm⟩ := (C110_plans _ p).2 h3
  have hw : FullPlan.toProto rest c o ⟨p, set, version, adv⟩ = .ok ⟨m, ⟨e.1, e.2.map some⟩, version, adv⟩ := by
    simp only [FullPlan.toProto, e1, Res.ok_bind, hm]
  obtain ⟨p', k1, k2, k3, k4, k5⟩ := C76_extensions_partial rest c ⟨p, set, version, adv⟩ o _ ht hv ho hload h2 hw
  exact ⟨_, p', hw, k1, k2.trans h1, k3, k4, k5⟩

/-! ## An example -/

/-- columns of a table: a key and a flag -/
def exFlags : NamedStruct := { names := ["k", "f"], types := [.prim .i32 2 0, .prim .boolean 1 0] }

/-- scan of the table -/
def exB1 : Rel := .read {} { schema := exFlags } (.named ["t"] none)
/-- filtered by its flag -/
def exB2 : Rel := .filter {} exB1 (exCol 1 (.prim .boolean 1 0)) none
/-- the measure `sum(#0) where #1` -/
def exB3m : Measure :=
  ⟨some ⟨⟨4, "sum", [], .prim .i64 1 0⟩, 3, 1, [.expr (exCol 0 (.prim .i32 2 0))], []⟩, exCol 1 (.prim .boolean 1 0)⟩
/-- summed by key -/
def exB3 : Rel := .aggregate {} exB2 [exB3m] [exCol 0 (.prim .i32 2 0)] [[0]] none
/-- sorted by the sum, swapping the columns -/
def exB4 : Rel := .sort { mapping := some [1, 0] } exB3 [.mk (exCol 1 (.prim .i64 1 0)) (.direction 2)] none
/-- five rows from the second on -/
def exB5 : Rel := .fetch {} exB4 1 5 none

theorem exFlags_carried : ∀ t ∈ exFlags.types, t.Carried := by
  simp [exFlags, Ty.Carried, Ty.Sendable, Ty.PrecisionsOk, Ty.NoCompound, Ty.Writable]

theorem exCol_carried {reg : Reg} {ts : List Ty} (i : Int32) (t : Ty) (k : Nat) (hk : i.toInt = k)
    (ht : ts[k]? = some t) : (exCol i t).Carried reg (some ts) :=
  ⟨exCol_sendable i t k hk ht, by
    simp [exCol, Expr.Writable, ERef.Writable, Seg.KeysWritable, ERoot.Writable]⟩

theorem exB1_type : exB1.recordType = .ok [.prim .i32 2 0, .prim .boolean 1 0] := rfl
theorem exB2_type : exB2.recordType = .ok [.prim .i32 2 0, .prim .boolean 1 0] := rfl
theorem exB3_type : exB3.recordType = .ok [.prim .i32 2 0, .prim .i64 1 0] := rfl

theorem exB1_built : Built exRelReg exB1 :=
  .call (.scan ["t"] exFlags) none _ rfl (by simp [BuildCall.Takes]) exFlags_carried

theorem exB2_built : Built exRelReg exB2 := by
  refine .call (.filter (some exB1) (exCol 1 (.prim .boolean 1 0))) none _ ?_ ?_ ?_
  · simp [BuildCall.run, filterRemap, exCol, Expr.isNil, yieldsBoolean, Expr.getType, Ty.withNullability,
      Ty.equals, exB1, exB2, Rel.directOutputSchema, checkRemap, checkMapping]
  · intro x hx
    simp only [BuildCall.Takes, Option.some.injEq] at hx
    subst hx
    exact exB1_built
  · intro x hx
    simp only [Option.some.injEq] at hx
    subst hx
    exact ⟨_, exB1_type, exCol_carried 1 _ 1 rfl rfl⟩

theorem exB3m_carried : exB3m.Carried exRelReg.toReg (some [.prim .i32 2 0, .prim .boolean 1 0]) := by
  have h0 := exCol_carried (reg := exRelReg.toReg) (ts := [.prim .i32 2 0, .prim .boolean 1 0]) 0 (.prim .i32 2 0) 0 rfl rfl
  have h1 := exCol_carried (reg := exRelReg.toReg) (ts := [.prim .i32 2 0, .prim .boolean 1 0]) 1 (.prim .boolean 1 0) 1 rfl rfl
  refine ⟨⟨⟨_, rfl, ⟨⟨"u", "sum"⟩, rfl, .inl rfl⟩, by simp [Ty.Sendable, Ty.PrecisionsOk, Ty.NoCompound], ?_, ?_⟩, .inr h1.1⟩,
    ⟨_, rfl, by simp [Ty.Writable], ?_, ?_, (carriedOpt (.inr h1)).2⟩⟩
  · simp only [EArg.SendableList, EArg.Sendable, and_true]; exact h0.1
  · simp only [ESort.SendableList]
  · simp only [EArg.WritableList, EArg.Writable, and_true]; exact h0.2
  · simp only [ESort.WritableList]

-- the hypotheses of `C112_measure` are met by the sum without and then with its filter
example : (newMeasure exB3m.measure (exCol 1 (.prim .boolean 1 0))).Carried exRelReg.toReg
    (some [.prim .i32 2 0, .prim .boolean 1 0]) := by
  obtain ⟨⟨h1, _⟩, g, hg, h2, h3, h4, _⟩ := exB3m_carried
  refine (C112_measure exRelReg.toReg (some [.prim .i32 2 0, .prim .boolean 1 0]) _ (exCol 1 (.prim .boolean 1 0))
    ⟨⟨h1, .inl rfl⟩, g, hg, h2, h3, h4, by simp only [Expr.WritableOpt]⟩ (.inr ?_)).2.2.1
  exact exCol_carried 1 _ 1 rfl rfl

theorem exB3_built : Built exRelReg exB3 :=
  .columns exB2 [exB3m] [0] _ rfl exB2_built ⟨_, exB2_type, by
    intro m hm
    simp only [List.mem_singleton] at hm
    subst hm
    exact exB3m_carried⟩

theorem exB4_built : Built exRelReg exB4 := by
  refine .call (.sort (some exB3) [.mk (exCol 1 (.prim .i64 1 0)) (.direction 2)]) (some [1, 0]) _ rfl ?_ ?_
  · intro x hx
    simp only [BuildCall.Takes, Option.some.injEq] at hx
    subst hx
    exact exB3_built
  · intro x hx
    simp only [Option.some.injEq] at hx
    subst hx
    exact ⟨_, exB3_type, ((C112_references exRelReg.toReg exB3 exB3 _ _ 0 exB3_type exB3_type).2.2 [1] _ rfl).2⟩

theorem exB5_built : Built exRelReg exB5 :=
  .call (.fetch (some exB4) 1 5) none _ rfl (by
    intro x hx
    simp only [BuildCall.Takes, Option.some.injEq] at hx
    subst hx
    exact exB4_built) trivial

/-- All hypotheses are met by a plan with a scan, a filter, a sum by key, a sort and a fetch, and one whose root
is the union of it with itself under an extension relation. -/
example : ∃ p, planWithBindings (some exB5) ["s", "k"] ["url"] [] [] = .ok p ∧
    ∃ m, p.toProto (Rel.toProto exRelReg.toReg) = .ok m ∧ Plan.fromProto (Rel.fromProto exRelReg) m = .ok p :=
  ⟨_, rfl, (C112_plan_partial exRelReg exB5 ["s", "k"] ["url"] [] _ exB5_built (by simp) rfl).2⟩

example : ∃ m, (Rel.extSingle {} (.set {} [exB5, exB5] 1 none) (.undecoded (some 7))).toProto exRelReg.toReg = .ok m ∧
    Rel.fromProto exRelReg m = .ok (.extSingle {} (.set {} [exB5, exB5] 1 none) (.undecoded (some 7))) := by
  refine C112_relations_partial _ _ (.extSingle (.set {} [exB5, exB5] 1 none) (.undecoded (some 7)) _ rfl ?_ rfl)
  refine .call (.set 1 [some exB5, some exB5]) none _ ?_ ?_ ?_
  · have h : exB5.recordType = .ok [.prim .i64 1 0, .prim .i32 2 0] := rfl
    have h2 : recordTypeEquals [.prim .i64 1 0, .prim .i32 2 0] [.prim .i64 1 0, .prim .i32 2 0] = .ok true := by
      simp [recordTypeEquals, Ty.equals, Ty.equalsList]
    simp [BuildCall.run, setRemap, allInputs, h, h2, checkSameTypes, checkRemap, checkMapping]
  · intro x hx
    simp only [BuildCall.Takes, List.mem_cons, Option.some.injEq, List.not_mem_nil, or_false, or_self] at hx
    subst hx
    exact exB5_built
  · intro x hx
    simp only [List.mem_cons, Option.some.injEq, List.not_mem_nil, or_false, or_self] at hx
    subst hx
    exact ⟨_, rfl, by simp [Ty.PlanTypeList, Ty.PlanType]⟩

/-! ## What is false -/

/-- **C112, negation: further relations.** A plan with a second relation cannot be written. -/
theorem C112_negation : ¬ C112_statement := by
  intro h
  obtain ⟨p, hp⟩ : ∃ p, buildPlan (some exB1) ["k", "f"] [some exB1] = .ok p := ⟨_, rfl⟩
  obtain ⟨m, hm, -⟩ := h exRelReg exB1 [exB1] ["k", "f"] [] [] p exB1_built (by simp [exB1_built]) (by simp) hp
  have h5 : p = ⟨[⟨some ⟨exB1, ["k", "f"]⟩, some exB1⟩, ⟨none, none⟩], [], []⟩ := by cases hp; rfl
  subst h5
  simp only [Plan.toProto, Res.mapL_cons, Res.mapL_nil, Relation.toProto, Res.bind_eq_ok] at hm
  obtain ⟨x, ⟨y, -, z, hz, -⟩, -⟩ := hm
  simp at hz

/-- **C112, negation: writes.** A plan whose root is an insert into a table is written, but not read back as the
same: the output mode is lost. -/
theorem C112_negation_write : ∃ r p m,
    (BuildCall.write (some exB1) 1 ["out"] exFlags).run none = .ok r ∧
    planWithBindings (some r) [] [] [] [] = .ok p ∧
    p.toProto (Rel.toProto exRelReg.toReg) = .ok m ∧
    ∃ p', Plan.fromProto (Rel.fromProto exRelReg) m = .ok p' ∧ p' ≠ p ∧
      ∀ x ∈ p'.relations, ∀ y, x.root = some y → y.input.recordType = .panic := by
  obtain ⟨h1, h2⟩ := built_carried exB1_built
  let r : Rel := .write {} ["out"] none exFlags 1 exB1 .noOutput
  have hw : r.Writable exRelReg.toReg := by
    simp only [r, Rel.Writable]
    exact ⟨(writableList_iff _).2 fun t ht => (exFlags_carried t ht).2, h2⟩
  obtain ⟨m, hm⟩ := (C110_relations exRelReg.toReg r).2 hw
  have hr := C46_roundtrip_partial _ _ _ _ _ _ _ _ _ h1 (fun t ht => (exFlags_carried t ht).1) (.inl rfl) hm
  refine ⟨r, _, ⟨[.root m []], [], []⟩, rfl, rfl, ?_, ⟨[⟨some ⟨.write {} ["out"] none exFlags 1 exB1 .unspecified, []⟩, none⟩], [], []⟩,
    ?_, ?_, ?_⟩
  · simp [Plan.toProto, Res.mapL_cons, Res.mapL_nil, Relation.toProto, hm, r]
  · simp [Plan.fromProto, Res.mapL_cons, Res.mapL_nil, Relation.fromProto, hr, isRecordTypeSupported]
  · simp [r]
  · intro x hx y hy
    simp only [List.mem_singleton] at hx
    subst hx
    simp only [Option.some.injEq] at hy
    subst hy
    rfl

end Verif

import Verif.Lemmas.RelMem
/-!
# Properties of schema computation in memory: C37
-/

namespace Verif

/-- **C37 (full statement, false).** However memory is allocated, after any sequence `rs` of
`RecordType` calls a record type returned before still has the same columns, and so has the record
type of every relation. -/
def C37_statement : Prop :=
  ∀ (g : Growth) (rs : List MRel) (r : MRel) (m m1 m2 : RMem) (s : RSlice) (ts : List Ty),
    r.recordType g m = .ok (s, m1) → m1.Reads s ts → schemaCalls g rs m1 = .ok m2 →
    m2.Reads s ts ∧
    ∃ s' m3, r.recordType g m2 = .ok (s', m3) ∧ m3.Reads s' ts

/-- **C37, partial.** Under the conditions `Safe` and without interval_day types, a sequence of
`RecordType` calls leaves every slice readable before (a schema or a returned record type) with the
columns it had, and every relation's record type computed afterwards has the columns it had before. Missing: scans
whose schema slice has spare capacity, outer joins whose right input has no columns, and interval_day
columns. -/
theorem C37_schema_pure_partial (g : Growth) (rs : List MRel) (m m' : RMem)
    (hsafe : ∀ r ∈ rs, r.Safe m) (hn : m.NoIntervalDay) (h : schemaCalls g rs m = .ok m') :
    (∀ s ts, m.Reads s ts → m'.Reads s ts) ∧
    (∀ (r : MRel) (s : RSlice) (m1 : RMem), r.Safe m → r.recordType g m = .ok (s, m1) →
      ∃ ts s' m2, m1.Reads s ts ∧ r.recordType g m' = .ok (s', m2) ∧ m2.Reads s' ts) := by
  have key : MemExtends m m' ∧ m'.NoIntervalDay := by
    induction rs generalizing m with
    | nil => cases h; exact ⟨MemExtends.refl _, hn⟩
    | cons r rs ih =>
      obtain ⟨⟨s1, m1⟩, h1, h⟩ := Res.bind_eq_ok.1 h
      obtain ⟨ts, -, hr, -⟩ := recordType_spec g r m s1 m1 (hsafe r (by simp)) hn h1
      obtain ⟨e1, e2⟩ := ih m1 (fun r' hr' => hr.ext.safe r' (hsafe r' (by simp [hr']))) hr.noID h
      exact ⟨hr.ext.trans e1, e2⟩
  obtain ⟨he, hn'⟩ := key
  refine ⟨fun s ts => he.reads, fun r s m1 hs h1 => ?_⟩
  obtain ⟨ts, c1, r1, -⟩ := recordType_spec g r m s m1 hs hn h1
  obtain ⟨s', m2, h2⟩ := recordType_total g r m' ts (he.safe r hs) hn' (he.columns r _ c1)
  obtain ⟨us, c2, r2, -⟩ := recordType_spec g r m' s' m2 (he.safe r hs) hn' h2
  cases columns_functional m' r _ _ (he.columns r _ c1) c2
  exact ⟨ts, s', m2, r1.reads, h2, r2.reads⟩

/-- memory with an i32 and a string type and two one-column schemas without spare capacity -/
def sampleMem : RMem := { objs := [.prim .i32 2 0, .prim .string 2 0], arrs := [[0], [1]] }

/-- an outer join of the two, with swapped output -/
def sampleOuter : MRel := .join (some [1, 0]) (.scan none ⟨0, 1⟩) (.scan none ⟨1, 1⟩) .outer

example : sampleOuter.Safe sampleMem ∧ sampleMem.NoIntervalDay ∧
    ∃ m', schemaCalls (fun _ n => n) [sampleOuter, sampleOuter] sampleMem = .ok m' := by
  refine ⟨⟨⟨⟨_, rfl, rfl⟩, [.prim .i32 2 0], [0], rfl, Nat.le_refl _, by unfold RMem.Holds; simp [sampleMem]⟩,
    ⟨⟨_, rfl, rfl⟩, [.prim .string 2 0], [1], rfl, Nat.le_refl _, by unfold RMem.Holds; simp [sampleMem]⟩,
    fun _ => Nat.one_pos⟩, ?_, _, rfl⟩
  intro n v p h
  simp [sampleMem] at h

/-- **C37 is false of the code (spare capacity)**: two crosses over a scan whose schema slice has a
spare slot share that slot, so the second call changes the columns returned by the first. -/
theorem C37_negation_capacity : ¬ C37_statement := by
  intro h
  obtain ⟨h1, -⟩ := h (fun _ _ => 0) [.concat none (.scan none ⟨0, 1⟩) (.scan none ⟨2, 1⟩)]
    (.concat none (.scan none ⟨0, 1⟩) (.scan none ⟨1, 1⟩))
    { objs := [.prim .i32 2 0, .prim .string 2 0, .prim .boolean 2 0], arrs := [[0, 0], [1], [2]] }
    _ _ ⟨0, 2⟩ [.prim .i32 2 0, .prim .string 2 0] rfl
    ⟨[0, 1], rfl, Nat.le_refl _, by unfold RMem.Holds; simp⟩ rfl
  obtain ⟨a, ha, -, hh⟩ := h1
  cases ha
  unfold RMem.Holds at hh
  simp at hh

/-- **C37 is false of the code (outer join)**: when the right side of an outer join has no columns,
the loop making the columns nullable writes into the left input's own schema. -/
theorem C37_negation_outer : ¬ C37_statement := by
  intro h
  obtain ⟨h1, -⟩ := h (fun _ _ => 0) [.join none (.scan none ⟨0, 1⟩) (.empty none) .outer]
    (.scan none ⟨0, 1⟩) { objs := [.prim .i32 2 0], arrs := [[0]] }
    _ _ ⟨0, 1⟩ [.prim .i32 2 0] rfl
    ⟨[0], rfl, Nat.le_refl _, by unfold RMem.Holds; simp⟩ rfl
  obtain ⟨a, ha, -, hh⟩ := h1
  cases ha
  unfold RMem.Holds at hh
  simp [RMem.store, Ty.withNullability, NullabilityNullable] at hh

/-- **C37 is false of the code (interval_day)**: a left join makes the interval_day columns of its
right input nullable in place. -/
theorem C37_negation_interval : ¬ C37_statement := by
  intro h
  obtain ⟨h1, -⟩ := h (fun _ _ => 0) [.join none (.scan none ⟨0, 1⟩) (.scan none ⟨1, 1⟩) .left]
    (.scan none ⟨1, 1⟩) { objs := [.prim .i32 2 0, .prec .intervalDay 2 0 3], arrs := [[0], [1]] }
    _ _ ⟨1, 1⟩ [.prec .intervalDay 2 0 3] rfl
    ⟨[1], rfl, Nat.le_refl _, by unfold RMem.Holds; simp⟩ rfl
  obtain ⟨a, ha, -, hh⟩ := h1
  cases ha
  unfold RMem.Holds at hh
  simp [Ty.withNullability, NullabilityNullable] at hh

end Verif

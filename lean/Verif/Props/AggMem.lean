import Verif.Lemmas.AggMem
import Verif.Props.Aggregate
/-!
# Properties of aggregates and their builders in memory: C114
-/

namespace Verif

/-- **C114 (full statement, false).** Whatever a program does with builders and aggregates, and
however `append` allocates, every object holds what it would hold if nothing were shared. -/
def C114_statement : Prop :=
  ∀ (g : Growth) (cs : List AggCall) (w : AggWorld), AggWorld.run g cs {} = some w →
    ∃ v, AggValues.run cs {} = some v ∧ w.Shows v

theorem shows_empty : AggWorld.Shows {} {} := ⟨.nil, .nil, .nil, .nil⟩

theorem inv_empty : AggWorld.Inv {} [] := by
  refine ⟨?_, ?_, ?_, ?_, ?_⟩
  · intro i j a b _ h; simp at h
  · intro a ha; simp at ha
  · intro i j s t _ h; simp at h
  · intro a ha; cases ha
  · intro k s h; simp at h

/-- **C114, partial (contents).** However `append` allocates: if a program does not write to a slice
of references after handing it to `AddRollup`, `AddGroupingSet` or `SetGroupingReferences`, then the
program runs exactly if it does so on values, and every slice, builder and aggregate then holds what it
would hold if nothing were shared. Missing: programs that reuse such a slice. -/
theorem C114_contents_partial (g : Growth) (cs : List AggCall) (hc : Careful [] cs) :
    (∀ w, AggWorld.run g cs {} = some w → ∃ v, AggValues.run cs {} = some v ∧ w.Shows v) ∧
    (∀ v, AggValues.run cs {} = some v → ∃ w, AggWorld.run g cs {} = some w ∧ w.Shows v) := by
  rcases run_sim g cs {} {} [] shows_empty inv_empty hc with ⟨h1, h2⟩ | ⟨w, v, k, h1, h2, h3, -⟩
  · exact ⟨fun w h => by simp [h1] at h, fun v h => by simp [h2] at h⟩
  · constructor
    · intro w' h
      rw [h1] at h; cases h
      exact ⟨v, h2, h3⟩
    · intro v' h
      rw [h2] at h; cases h
      exact ⟨w, h1, h3⟩

theorem careful_split : ∀ (cs ds : List AggCall) (kept : List Nat), Careful kept (cs ++ ds) →
    Careful kept cs
  | [], _, _, _ => trivial
  | _ :: cs, ds, _, h => ⟨h.1, careful_split cs ds _ h.2⟩

theorem world_run_append (g : Growth) : ∀ (cs ds : List AggCall) (w : AggWorld),
    AggWorld.run g (cs ++ ds) w = (AggWorld.run g cs w).bind fun w => AggWorld.run g ds w
  | [], _, _ => rfl
  | c :: cs, ds, w => by
      simp only [List.cons_append, AggWorld.run]
      cases w.step g c with
      | none => rfl
      | some w' => exact world_run_append g cs ds w'

theorem values_run_append : ∀ (cs ds : List AggCall) (v : AggValues),
    AggValues.run (cs ++ ds) v = (AggValues.run cs v).bind fun v => AggValues.run ds v
  | [], _, _ => rfl
  | c :: cs, ds, v => by
      simp only [List.cons_append, AggValues.run]
      cases v.step c with
      | none => rfl
      | some v' => exact values_run_append cs ds v'

theorem set_other {α : Type} {xs : List α} {i j : Nat} {x y : α} (h : xs[j]? = some x) (hij : i ≠ j) :
    (xs.set i y)[j]? = some x := by
  rw [List.getElem?_set_ne hij]; exact h

theorem snoc_old {α : Type} {xs : List α} {j : Nat} {x y : α} (h : xs[j]? = some x) :
    (xs ++ [y])[j]? = some x := by
  rw [List.getElem?_append_left (List.getElem?_eq_some_iff.1 h).1]; exact h

/-- a call that does not set it leaves the contents of an aggregate alone -/
theorem values_step_agg {v v' : AggValues} {c : AggCall} {j : Nat} {x : AggVal}
    (hx : v.aggs[j]? = some x) (hc : ¬ c.Sets j) (h : v.step c = some v') : v'.aggs[j]? = some x := by
  cases c <;>
    simp only [AggValues.step, AggValues.onBuilder, AggValues.onAgg, Option.bind_eq_some_iff,
      Option.map_eq_some_iff, Option.some.injEq, AggCall.Sets] at h hc
  case makeRefs => subst h; exact hx
  case makeMeasures => subst h; exact hx
  case writeRefs =>
    obtain ⟨xs, -, h⟩ := h
    split at h
    · cases h; exact hx
    · cases h
  case received => subst h; exact snoc_old hx
  case newBuilder => obtain ⟨_, -, rfl⟩ := h; exact hx
  case addExpression => obtain ⟨_, -, rfl⟩ := h; exact hx
  case addCube => obtain ⟨_, -, _, -, rfl⟩ := h; exact hx
  case addRollup => obtain ⟨_, -, _, -, rfl⟩ := h; exact hx
  case addGroupingSet => obtain ⟨_, -, _, -, rfl⟩ := h; exact hx
  case replaceInput => obtain ⟨_, -, rfl⟩ := h; exact hx
  case clearMeasures => obtain ⟨_, -, rfl⟩ := h; exact hx
  case clearGrouping => obtain ⟨_, -, rfl⟩ := h; exact hx
  case build =>
    obtain ⟨b, -, rfl⟩ := h
    split
    · exact snoc_old hx
    · exact hx
  case toBuilder => obtain ⟨_, -, rfl⟩ := h; exact hx
  case copy => obtain ⟨_, -, rfl⟩ := h; exact snoc_old hx
  case setInput => obtain ⟨_, -, rfl⟩ := h; exact set_other hx hc
  case setMeasures => obtain ⟨_, -, _, -, rfl⟩ := h; exact set_other hx hc
  case setGroupingExpressions => obtain ⟨_, -, rfl⟩ := h; exact set_other hx hc
  case setGroupingReferences => obtain ⟨_, -, _, -, rfl⟩ := h; exact set_other hx hc

theorem values_run_agg : ∀ (cs : List AggCall) {v v' : AggValues} {j : Nat} {x : AggVal},
    v.aggs[j]? = some x → (∀ c ∈ cs, ¬ c.Sets j) → AggValues.run cs v = some v' → v'.aggs[j]? = some x
  | [], _, _, _, _, hx, _, h => by cases h; exact hx
  | c :: cs, v, v', j, x, hx, hc, h => by
      simp only [AggValues.run, Option.bind_eq_some_iff] at h
      obtain ⟨v1, h1, h⟩ := h
      exact values_run_agg cs (values_step_agg hx (hc c (by simp)) h1) (fun d hd => hc d (by simp [hd])) h

/-- **C114, partial (stable aggregates).** Under the same condition, an aggregate that has been built,
received or copied keeps its contents through all further calls on builders (those it was built with,
those made from it with `ToBuilder`, and all others) and on other aggregates; only its own setters
change it. -/
theorem C114_stable_partial (g : Growth) (cs ds : List AggCall) (hc : Careful [] (cs ++ ds))
    (w w' : AggWorld) (h1 : AggWorld.run g cs {} = some w) (h2 : AggWorld.run g ds w = some w')
    (j : Nat) (hd : ∀ c ∈ ds, ¬ c.Sets j) (a : MAgg) (x : AggVal) (ha : w.aggs[j]? = some a)
    (hx : a.Shows w.mem x) : ∃ a', w'.aggs[j]? = some a' ∧ a'.Shows w'.mem x := by
  obtain ⟨v, e1, s1⟩ := (C114_contents_partial g cs (careful_split cs ds [] hc)).1 w h1
  obtain ⟨v', e2, s2⟩ := (C114_contents_partial g (cs ++ ds) hc).1 w'
    (by rw [world_run_append, h1]; exact h2)
  rw [values_run_append, e1] at e2
  have hv : v.aggs[j]? = some x := by
    rcases forall₂_getElem? s1.aggs j with ⟨h, -⟩ | ⟨b, y, h3, h4, h5⟩
    · rw [ha] at h; cases h
    · rw [ha] at h3; cases h3
      have hy : y = x := by
        obtain ⟨p1, p2, p3, p4, p5, p6⟩ := h5
        obtain ⟨q1, q2, q3, q4, q5, q6⟩ := hx
        rw [p3] at q3; rw [p4] at q4; rw [p5] at q5
        cases y; cases x
        simp only [Option.some.injEq] at q3 q4 q5
        simp only at p1 p2 p6 q1 q2 q6
        subst q1 q2 q3 q4 q5 q6 p1 p2 p6
        rfl
      rw [← hy]; exact h4
  have := values_run_agg ds hv hd e2
  rcases forall₂_getElem? s2.aggs j with ⟨-, h⟩ | ⟨b, y, h3, h4, h5⟩
  · rw [this] at h; cases h
  · rw [this] at h4; cases h4
    exact ⟨b, h3, h5⟩

/-- A program with two builders over one input: the first aggregate is built, the builder goes on and
builds another one, a third comes from the first with `ToBuilder`; the slice handed to `AddCube` is
written to afterwards. -/
def memProgram : List AggCall :=
  [.makeMeasures [] 0, .makeRefs [0] 3, .makeRefs [0, 1] 0, .newBuilder (some sampleScan) 0,
   .addExpression 0 ⟨0, sampleCond⟩, .addGroupingSet 0 0, .build 0]

/-- what the program does then -/
def memProgramMore : List AggCall :=
  [.addExpression 0 ⟨1, exSeven⟩, .addCube 0 1, .writeRefs 1 0 7, .build 0, .toBuilder 0,
   .addExpression 1 ⟨1, exSeven⟩, .addRollup 1 0, .build 1, .clearGrouping 0, .setInput 1 none]

example : Careful [] (memProgram ++ memProgramMore) ∧
    (∃ w w', AggWorld.run (fun _ n => n) memProgram {} = some w ∧
      AggWorld.run (fun _ n => n) memProgramMore w = some w' ∧ w'.aggs.length = 3 ∧
      ∃ a, w.aggs[0]? = some a ∧
        a.Shows w.mem ⟨{}, some sampleScan, [], [⟨0, sampleCond⟩], [[0]], none⟩) ∧
    ∀ c ∈ memProgramMore, ¬ c.Sets 0 := by
  refine ⟨?_, ⟨_, _, rfl, rfl, rfl, _, rfl, rfl, rfl, rfl, rfl, rfl, rfl⟩, ?_⟩
  · simp [memProgram, memProgramMore, Careful, AggCall.keeps]
  · simp [memProgramMore, AggCall.Sets]

/-- **C114 is false of the code**: a slice of references that is filled again for a second grouping
set changes the first one. -/
theorem C114_negation : ¬ C114_statement := by
  intro h
  obtain ⟨v, hv, hs⟩ := h (fun _ n => n)
    [.makeMeasures [] 0, .makeRefs [0] 0, .newBuilder (some sampleScan) 0, .addGroupingSet 0 0,
     .writeRefs 0 0 1, .addGroupingSet 0 0] _ rfl
  have hv' : v = { givenRefs := [[1]], givenMeasures := [[]], builders :=
      [{ input := some sampleScan, measures := [], refs := [[0], [1]] }] } := by
    simp [AggValues.run, AggValues.step, AggValues.onBuilder, AggBuilder.step,
      AggBuilder.addGroupingSet] at hv
    exact hv.symm
  subst hv'
  have hb := hs.builders
  cases hb with
  | cons h1 _ =>
    obtain ⟨-, -, -, h⟩ := h1
    have : (some [[1], [1]] : Option (List (List UInt32))) = some [[0], [1]] := h
    simp at this

/-- **C114 (rebuilding, full statement, false).** An aggregate that could have been built is the same
after `ToBuilder` and `Build`. -/
def C114_rebuild_statement : Prop :=
  ∀ (g : Growth) (cs : List AggCall) (w : AggWorld) (j : Nat) (a : MAgg) (x : AggVal), Careful [] cs →
    AggWorld.run g cs {} = some w → w.aggs[j]? = some a → a.Shows w.mem x →
    (∃ r, AggBuilder.build ⟨x.input, x.measures, x.exprs, x.refs⟩ = .ok r) →
    ∃ w' a' x', AggWorld.run g [.toBuilder j, .build w.builders.length] w = some w' ∧
      w'.aggs[w.aggs.length]? = some a' ∧ a'.Shows w'.mem x' ∧ x'.rel = x.rel

/-- The aggregate of `ToBuilder` and `Build` has the input, the measures, the expressions and the
grouping sets of the one it came from, and no output mapping, hint or extension. -/
theorem C114_rebuilt (g : Growth) (cs : List AggCall) (w : AggWorld) (j : Nat) (a : MAgg) (x : AggVal)
    (hc : Careful [] cs) (h : AggWorld.run g cs {} = some w) (ha : w.aggs[j]? = some a)
    (hx : a.Shows w.mem x)
    (hb : ∃ r, AggBuilder.build ⟨x.input, x.measures, x.exprs, x.refs⟩ = .ok r) :
    ∃ w' a', AggWorld.run g [.toBuilder j, .build w.builders.length] w = some w' ∧
      w'.aggs[w.aggs.length]? = some a' ∧
      a'.Shows w'.mem { x with common := {}, adv := none } := by
  have hval : AggBuilder.validate ⟨x.input, x.measures, x.exprs, x.refs⟩ = true := by
    obtain ⟨r, hr⟩ := hb
    unfold AggBuilder.build at hr
    split at hr
    · assumption
    · cases hr
  rcases run_sim g cs {} {} [] shows_empty inv_empty hc with ⟨h1, h2⟩ | ⟨w1, v, k, h1, h2, h3, h4⟩
  · rw [h] at h1; cases h1
  · rw [h] at h1; cases h1
    have hcare : Careful k [.toBuilder j, .build w.builders.length] := by simp [Careful]
    have hlen : v.builders.length = w.builders.length := h3.builders.length_eq.symm
    have hlena : v.aggs.length = w.aggs.length := h3.aggs.length_eq.symm
    have hv : v.aggs[j]? = some x := by
      rcases forall₂_getElem? h3.aggs j with ⟨h, -⟩ | ⟨b, y, e3, e4, h5⟩
      · rw [ha] at h; cases h
      · rw [ha] at e3; cases e3
        have hy : y = x := by
          obtain ⟨p1, p2, p3, p4, p5, p6⟩ := h5
          obtain ⟨q1, q2, q3, q4, q5, q6⟩ := hx
          rw [p3] at q3; rw [p4] at q4; rw [p5] at q5
          cases y; cases x
          simp only [Option.some.injEq] at q3 q4 q5
          simp only at p1 p2 p6 q1 q2 q6
          subst q1 q2 q3 q4 q5 q6 p1 p2 p6
          rfl
        rw [← hy]; exact e4
    have hvrun : AggValues.run [.toBuilder j, .build w.builders.length] v =
        some { v with
          builders := v.builders ++ [⟨x.input, x.measures, x.exprs, x.refs⟩]
          aggs := v.aggs ++ [⟨{}, x.input, x.measures, x.exprs, x.refs, none⟩] } := by
      simp only [AggValues.run, AggValues.step, hv, Option.map_some, Option.bind_some, ← hlen,
        List.getElem?_concat_length, hval, if_true]
    rcases run_sim g _ w v k h3 h4 hcare with ⟨-, e⟩ | ⟨w', v', k', e1, e2, e3, -⟩
    · rw [hvrun] at e; cases e
    · rw [hvrun] at e2
      simp only [Option.some.injEq] at e2
      subst e2
      refine ⟨w', ?_⟩
      rcases forall₂_getElem? e3.aggs w.aggs.length with ⟨-, e⟩ | ⟨a', y, f1, f2, f3⟩
      · simp [← hlena] at e
      · rw [← hlena] at f2
        simp only [List.getElem?_concat_length, Option.some.injEq] at f2
        subst f2
        exact ⟨a', e1, f1, f3⟩

/-- **C114, partial (rebuilding).** An aggregate without output mapping, hint and extensions is the
same after `ToBuilder` and `Build`. -/
theorem C114_rebuild_partial (g : Growth) (cs : List AggCall) (w : AggWorld) (j : Nat) (a : MAgg)
    (x : AggVal) (hc : Careful [] cs) (h : AggWorld.run g cs {} = some w) (ha : w.aggs[j]? = some a)
    (hx : a.Shows w.mem x)
    (hb : ∃ r, AggBuilder.build ⟨x.input, x.measures, x.exprs, x.refs⟩ = .ok r)
    (hcommon : x.common = {}) (hadv : x.adv = none) :
    ∃ w' a' x', AggWorld.run g [.toBuilder j, .build w.builders.length] w = some w' ∧
      w'.aggs[w.aggs.length]? = some a' ∧ a'.Shows w'.mem x' ∧ x'.rel = x.rel := by
  obtain ⟨w', a', h1, h2, h3⟩ := C114_rebuilt g cs w j a x hc h ha hx hb
  refine ⟨w', a', _, h1, h2, h3, ?_⟩
  unfold AggVal.rel
  rw [hcommon, hadv]

example : Careful [] memProgram ∧ ∃ w a, AggWorld.run (fun _ n => n) memProgram {} = some w ∧
    w.aggs[0]? = some a ∧ a.Shows w.mem ⟨{}, some sampleScan, [], [⟨0, sampleCond⟩], [[0]], none⟩ ∧
    ∃ r, AggBuilder.build ⟨some sampleScan, [], [⟨0, sampleCond⟩], [[0]]⟩ = .ok r :=
  ⟨by simp [memProgram, Careful, AggCall.keeps], _, _, rfl, rfl, ⟨rfl, rfl, rfl, rfl, rfl, rfl⟩, _, rfl⟩

/-- **Rebuilding loses the output mapping**: an aggregate with two grouping columns that emits only
the second one emits both after `ToBuilder` and `Build`. -/
theorem C114_negation_rebuild : ¬ C114_rebuild_statement := by
  intro h
  obtain ⟨w', a', x', h1, h2, h3, h4⟩ := h (fun _ n => n)
    [.received ⟨{ mapping := some [1] }, some sampleScan, [], [⟨0, sampleCond⟩, ⟨1, exSeven⟩], [[0, 1]], none⟩]
    _ 0 _ ⟨{ mapping := some [1] }, some sampleScan, [], [⟨0, sampleCond⟩, ⟨1, exSeven⟩], [[0, 1]], none⟩
    (by simp [Careful]) rfl rfl ⟨rfl, rfl, rfl, rfl, rfl, rfl⟩ ⟨_, rfl⟩
  cases h1
  cases h2
  obtain ⟨c, -⟩ := h3
  unfold AggVal.rel at h4
  cases hi : x'.input with
  | none => rw [hi] at h4; cases h4
  | some i =>
    rw [hi] at h4
    simp only [Option.map_some, Option.some.injEq, Rel.aggregate.injEq] at h4
    rw [← c] at h4
    simp at h4

end Verif

import Verif.Model.AggMem
import Mathlib.Data.List.Forall2
/-!
# Vocabulary for aggregates and builders in memory

What a program using aggregates and builders would expect if every slice were a value of its own:
`AggValues` and its steps know no arrays and no sharing.
-/

namespace Verif

/-- The program's slices, the builders and the aggregates as contents. -/
structure AggValues where
  givenRefs : List (List UInt32) := []
  givenMeasures : List (List Measure) := []
  builders : List AggBuilder := []
  aggs : List AggVal := []

/-- The builder `i` after `f`, everything else as before. -/
def AggValues.onBuilder (v : AggValues) (i : Nat) (f : AggBuilder → AggBuilder) : Option AggValues :=
  (v.builders[i]?).map fun b => { v with builders := v.builders.set i (f b) }

/-- The aggregate `j` after `f`, everything else as before. -/
def AggValues.onAgg (v : AggValues) (j : Nat) (f : AggVal → AggVal) : Option AggValues :=
  (v.aggs[j]?).map fun a => { v with aggs := v.aggs.set j (f a) }

/-- What a call is expected to do: it changes the object it is called on, or makes a new one. -/
def AggValues.step (v : AggValues) : AggCall → Option AggValues
  | .makeRefs xs _ => some { v with givenRefs := v.givenRefs ++ [xs] }
  | .makeMeasures ms _ => some { v with givenMeasures := v.givenMeasures ++ [ms] }
  | .writeRefs k i x =>
      (v.givenRefs[k]?).bind fun xs =>
      if i < xs.length then some { v with givenRefs := v.givenRefs.set k (xs.set i x) } else none
  | .received a => some { v with aggs := v.aggs ++ [a] }
  | .newBuilder input k =>
      (v.givenMeasures[k]?).map fun ms =>
      { v with builders := v.builders ++ [{ input := input, measures := ms }] }
  | .addExpression i e => v.onBuilder i (·.step (.addExpression e))
  | .addCube i k => (v.givenRefs[k]?).bind fun xs => v.onBuilder i (·.step (.addCube xs))
  | .addRollup i k => (v.givenRefs[k]?).bind fun xs => v.onBuilder i (·.step (.addRollup xs))
  | .addGroupingSet i k => (v.givenRefs[k]?).bind fun xs => v.onBuilder i (·.step (.addGroupingSet xs))
  | .replaceInput i r => v.onBuilder i (·.step (.replaceInput r))
  | .clearMeasures i => v.onBuilder i (·.step .clearMeasures)
  | .clearGrouping i => v.onBuilder i (·.step .clearGrouping)
  | .build i =>
      (v.builders[i]?).map fun b =>
      if b.validate then
        { v with aggs := v.aggs ++ [⟨{}, b.input, b.measures, b.exprs, b.refs, none⟩] }
      else v
  | .toBuilder j =>
      (v.aggs[j]?).map fun a =>
      { v with builders := v.builders ++ [⟨a.input, a.measures, a.exprs, a.refs⟩] }
  | .copy j input =>
      (v.aggs[j]?).map fun a => { v with aggs := v.aggs ++ [{ a with input := input }] }
  | .setInput j input => v.onAgg j ({ · with input := input })
  | .setMeasures j k => (v.givenMeasures[k]?).bind fun ms => v.onAgg j ({ · with measures := ms })
  | .setGroupingExpressions j es => v.onAgg j ({ · with exprs := es })
  | .setGroupingReferences j ks =>
      (ks.mapM fun k => v.givenRefs[k]?).bind fun rs => v.onAgg j ({ · with refs := rs })

/-- The calls one after the other. -/
def AggValues.run : List AggCall → AggValues → Option AggValues
  | [], v => some v
  | c :: cs, v => (v.step c).bind fun v => AggValues.run cs v

/-- The builder in memory has the contents `v`. -/
def MBuilder.Shows (m : AggMem) (b : MBuilder) (v : AggBuilder) : Prop :=
  b.input = v.input ∧ m.meas.read b.measures = some v.measures ∧
  m.exprs.read b.exprs = some v.exprs ∧ m.readSets b.refs = some v.refs

/-- The aggregate in memory has the contents `v`. -/
def MAgg.Shows (m : AggMem) (a : MAgg) (v : AggVal) : Prop :=
  a.common = v.common ∧ a.input = v.input ∧ m.meas.read a.measures = some v.measures ∧
  m.exprs.read a.exprs = some v.exprs ∧ m.readSets a.refs = some v.refs ∧ a.adv = v.adv

/-- What there is in memory, object by object. -/
structure AggWorld.Shows (w : AggWorld) (v : AggValues) : Prop where
  refs : List.Forall₂ (fun s xs => w.mem.nums.read s = some xs) w.givenRefs v.givenRefs
  meas : List.Forall₂ (fun s xs => w.mem.meas.read s = some xs) w.givenMeasures v.givenMeasures
  builders : List.Forall₂ (MBuilder.Shows w.mem) w.builders v.builders
  aggs : List.Forall₂ (MAgg.Shows w.mem) w.aggs v.aggs

/-- The slices of numbers a call keeps instead of copying them. -/
def AggCall.keeps : AggCall → List Nat
  | .addRollup _ k | .addGroupingSet _ k => [k]
  | .setGroupingReferences _ ks => ks
  | _ => []

/-- The program writes to none of the slices `kept`, and to no slice of numbers it has handed to
`AddRollup`, `AddGroupingSet` or `SetGroupingReferences` before. -/
def Careful : List Nat → List AggCall → Prop
  | _, [] => True
  | kept, c :: cs =>
      (∀ k i x, c = .writeRefs k i x → k ∉ kept) ∧ Careful (c.keeps ++ kept) cs

/-- The call sets a part of the aggregate `j`. -/
def AggCall.Sets (j : Nat) : AggCall → Prop
  | .setInput i _ | .setMeasures i _ | .setGroupingExpressions i _ | .setGroupingReferences i _ => i = j
  | _ => False

/-- The relation an aggregate's contents stand for; an aggregate without input is none. -/
def AggVal.rel (v : AggVal) : Option Rel :=
  v.input.map fun i => .aggregate v.common i v.measures (v.exprs.map (·.e)) v.refs v.adv

end Verif

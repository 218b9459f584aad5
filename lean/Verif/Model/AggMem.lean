import Verif.Model.Aggregate
import Verif.Model.RelMem
/-!
# Aggregates and their builders in memory

`AggregateRelBuilder` (`plan/builders.go`) and `AggregateRel` (`plan/relations.go`) as objects whose
slices may share arrays. `Model/Aggregate.lean` treats the slices as their contents; here the arrays
are kept, with their capacities, so that what one object does to another can be seen.

Simplifications: slices start at the beginning of their array (none of the functions below reslices
from the middle); a nil slice is an empty slice of an array without capacity; objects are numbered in
the order of their creation; copying a builder with `*b` and writing through the slices returned by
`GroupingExpressions` and its siblings (`plan/relations.go:1159-1161`) are left out.
-/

namespace Verif

/-- An array: the slots written so far and the capacity. -/
structure GoArr (α : Type) where
  elems : List α
  cap : Nat

/-- The arrays holding values of one type, by address. -/
abbrev GoHeap (α : Type) := List (GoArr α)

/-- The elements of a slice, `none` if it is none. -/
def GoHeap.read {α : Type} (h : GoHeap α) (s : RSlice) : Option (List α) :=
  match h[s.arr]? with
  | some a => if s.len ≤ a.elems.length then some (a.elems.take s.len) else none
  | none => none

/-- A new array holding `xs` with `spare` unused slots (`make` and `copy`, a slice literal, or a
growing `append`). -/
def GoHeap.alloc {α : Type} (h : GoHeap α) (xs : List α) (spare : Nat) : RSlice × GoHeap α :=
  (⟨h.length, xs.length⟩, h ++ [⟨xs, xs.length + spare⟩])

/-- `append(s, x)`: in place when the capacity suffices. -/
def GoHeap.push {α : Type} (g : Growth) (h : GoHeap α) (s : RSlice) (x : α) : Option (RSlice × GoHeap α) :=
  match h[s.arr]? with
  | none => none
  | some a =>
      if s.len + 1 ≤ a.cap then
        some (⟨s.arr, s.len + 1⟩,
          h.set s.arr { a with elems := a.elems.take s.len ++ x :: a.elems.drop (s.len + 1) })
      else some (h.alloc (a.elems.take s.len ++ [x]) (g a.cap (s.len + 1)))

/-- `s[i] = x` -/
def GoHeap.write {α : Type} (h : GoHeap α) (s : RSlice) (i : Nat) (x : α) : GoHeap α :=
  h.modify s.arr fun a => { a with elems := a.elems.set i x }

/-- The arrays of numbers (`[]uint32`), of grouping sets (`[][]uint32`), of grouping expressions and
of measures. -/
structure AggMem where
  nums : GoHeap UInt32 := []
  sets : GoHeap RSlice := []
  exprs : GoHeap PExpr := []
  meas : GoHeap Measure := []

/-- The numbers of a slice of slices. -/
def AggMem.readSets (m : AggMem) (s : RSlice) : Option (List (List UInt32)) :=
  (m.sets.read s).bind fun ts => ts.mapM m.nums.read

/-- `AggregateRelBuilder`, `plan/builders.go:822-827` -/
structure MBuilder where
  input : Option Rel
  measures : RSlice
  exprs : RSlice
  refs : RSlice

/-- `AggregateRel`, `plan/relations.go:1127-1135` -/
structure MAgg where
  common : RelCommon
  input : Option Rel
  measures : RSlice
  exprs : RSlice
  refs : RSlice
  adv : Option Nat

/-- The slices the caller made, the builders and the aggregates. -/
structure AggWorld where
  mem : AggMem := {}
  givenRefs : List RSlice := []
  givenMeasures : List RSlice := []
  builders : List MBuilder := []
  aggs : List MAgg := []

/-- An aggregate as its contents. -/
structure AggVal where
  common : RelCommon
  input : Option Rel
  measures : List Measure
  exprs : List PExpr
  refs : List (List UInt32)
  adv : Option Nat

/-- What a program does: it makes slices of its own (`makeRefs`, `makeMeasures`) and writes to them
(`writeRefs`), gets aggregates from elsewhere, such as a plan that was read (`received`,
`plan/plan.go:571-630`), and calls `RelBuilder.AggregateRel` (`plan/builders.go:818-820`), the methods
of the builder (829-917) and of the aggregate (`plan/relations.go:1215-1237,1301-1315`). Slices,
builders and aggregates are given by their numbers. -/
inductive AggCall where
  | makeRefs (xs : List UInt32) (spare : Nat)
  | makeMeasures (ms : List Measure) (spare : Nat)
  | writeRefs (k i : Nat) (x : UInt32)
  | received (v : AggVal)
  | newBuilder (input : Option Rel) (k : Nat)
  | addExpression (b : Nat) (e : PExpr)
  | addCube (b k : Nat)
  | addRollup (b k : Nat)
  | addGroupingSet (b k : Nat)
  | replaceInput (b : Nat) (r : Option Rel)
  | clearMeasures (b : Nat)
  | clearGrouping (b : Nat)
  | build (b : Nat)
  | toBuilder (a : Nat)
  | copy (a : Nat) (input : Option Rel)
  | setInput (a : Nat) (input : Option Rel)
  | setMeasures (a k : Nat)
  | setGroupingExpressions (a : Nat) (es : List PExpr)
  | setGroupingReferences (a : Nat) (ks : List Nat)

/-- The loop of `AddCube`, `plan/builders.go:857-860`, over the combination indices `ks`; `extractGroup`
(867-875) appends to a nil slice of its own. -/
def cubeLoop (g : Growth) (refs : List UInt32) : List Nat → AggMem → RSlice → Option (RSlice × AggMem)
  | [], m, s => some (s, m)
  | k :: ks, m, s =>
      let group := extractGroup k 0 refs
      let (t, nums) := m.nums.alloc group (g 0 group.length)
      (m.sets.push g s t).bind fun (s, sets) =>
      cubeLoop g refs ks { m with nums := nums, sets := sets } s

/-- The loop of `AddRollup`, `plan/builders.go:879-882`: `groupingReferences[:i]` shares the array -/
def rollupLoop (g : Growth) (refs : RSlice) : Nat → AggMem → RSlice → Option (RSlice × AggMem)
  | 0, m, s => some (s, m)
  | i + 1, m, s =>
      (m.sets.push g s ⟨refs.arr, i + 1⟩).bind fun (s, sets) =>
      rollupLoop g refs i { m with sets := sets } s

/-- The builder's contents, as used by `validate` (`plan/builders.go:919-947`). -/
def MBuilder.value (m : AggMem) (b : MBuilder) : Option AggBuilder :=
  (m.meas.read b.measures).bind fun ms => (m.exprs.read b.exprs).bind fun es =>
  (m.readSets b.refs).bind fun rs => some { input := b.input, measures := ms, exprs := es, refs := rs }

/-- New arrays for the grouping sets `rs` (the sets, then the slice of sets). -/
def allocSets : List (List UInt32) → AggMem → List RSlice × AggMem
  | [], m => ([], m)
  | r :: rs, m =>
      let (t, nums) := m.nums.alloc r 0
      let (ts, m) := allocSets rs { m with nums := nums }
      (t :: ts, m)

/-- One call; `none` if it names an object that does not exist. Calls that return an error
(`AddCube` of more than 20 references, `Build` of a builder that is not valid) change nothing.
* `AddExpression` `plan/builders.go:830-839`, `AddCube` 847-863, `AddRollup` 878-883,
  `AddGroupingSet` 886-888, `ReplaceInput` 890-892, `ClearMeasures` 894-896, `ClearGrouping` 898-901,
  `Build` 903-917;
* `Copy` `plan/relations.go:1215-1222`, `ToBuilder` 1226-1237, `SetInput` and the other setters
  1301-1315. -/
def AggWorld.step (g : Growth) (w : AggWorld) : AggCall → Option AggWorld
  | .makeRefs xs spare =>
      let (s, nums) := w.mem.nums.alloc xs spare
      some { w with mem := { w.mem with nums := nums }, givenRefs := w.givenRefs ++ [s] }
  | .makeMeasures ms spare =>
      let (s, meas) := w.mem.meas.alloc ms spare
      some { w with mem := { w.mem with meas := meas }, givenMeasures := w.givenMeasures ++ [s] }
  | .writeRefs k i x =>
      (w.givenRefs[k]?).bind fun s =>
      if i < s.len then some { w with mem := { w.mem with nums := w.mem.nums.write s i x } } else none
  | .received v =>
      let (ts, m) := allocSets v.refs w.mem
      let (rs, sets) := m.sets.alloc ts 0
      let (es, exprs) := m.exprs.alloc v.exprs 0
      let (ms, meas) := m.meas.alloc v.measures 0
      some { w with
        mem := { nums := m.nums, sets := sets, exprs := exprs, meas := meas }
        aggs := w.aggs ++ [⟨v.common, v.input, ms, es, rs, v.adv⟩] }
  | .newBuilder input k =>
      (w.givenMeasures[k]?).bind fun ms =>
      let (es, exprs) := w.mem.exprs.alloc [] 0
      let (rs, sets) := w.mem.sets.alloc [] 0
      some { w with
        mem := { w.mem with exprs := exprs, sets := sets }
        builders := w.builders ++ [⟨input, ms, es, rs⟩] }
  | .addExpression i e =>
      (w.builders[i]?).bind fun b => (w.mem.exprs.read b.exprs).bind fun es =>
      match findAddr e.addr 0 es with
      | some _ => some w
      | none =>
          (w.mem.exprs.push g b.exprs e).bind fun (s, exprs) =>
          some { w with
            mem := { w.mem with exprs := exprs }
            builders := w.builders.set i { b with exprs := s } }
  | .addCube i k =>
      (w.builders[i]?).bind fun b => (w.givenRefs[k]?).bind fun s => (w.mem.nums.read s).bind fun xs =>
      if xs.length > maxGroupingSize then some w
      else
        (cubeLoop g xs (List.range' 1 ((1 <<< xs.length) - 1)) w.mem b.refs).bind fun (s, m) =>
        some { w with mem := m, builders := w.builders.set i { b with refs := s } }
  | .addRollup i k =>
      (w.builders[i]?).bind fun b => (w.givenRefs[k]?).bind fun s =>
      (rollupLoop g s s.len w.mem b.refs).bind fun (s, m) =>
      some { w with mem := m, builders := w.builders.set i { b with refs := s } }
  | .addGroupingSet i k =>
      (w.builders[i]?).bind fun b => (w.givenRefs[k]?).bind fun t =>
      (w.mem.sets.push g b.refs t).bind fun (s, sets) =>
      some { w with
        mem := { w.mem with sets := sets }, builders := w.builders.set i { b with refs := s } }
  | .replaceInput i r =>
      (w.builders[i]?).bind fun b => some { w with builders := w.builders.set i { b with input := r } }
  | .clearMeasures i =>
      (w.builders[i]?).bind fun b =>
      let (s, meas) := w.mem.meas.alloc [] 0
      some { w with
        mem := { w.mem with meas := meas }, builders := w.builders.set i { b with measures := s } }
  | .clearGrouping i =>
      (w.builders[i]?).bind fun b =>
      let (es, exprs) := w.mem.exprs.alloc [] 0
      let (rs, sets) := w.mem.sets.alloc [] 0
      some { w with
        mem := { w.mem with exprs := exprs, sets := sets }
        builders := w.builders.set i { b with exprs := es, refs := rs } }
  | .build i =>
      (w.builders[i]?).bind fun b => (b.value w.mem).bind fun v =>
      if v.validate then
        some { w with aggs := w.aggs ++ [⟨{}, b.input, b.measures, b.exprs, b.refs, none⟩] }
      else some w
  | .toBuilder j =>
      (w.aggs[j]?).bind fun a =>
      (w.mem.meas.read a.measures).bind fun ms => (w.mem.exprs.read a.exprs).bind fun es =>
      (w.mem.sets.read a.refs).bind fun ts =>
      let (sm, meas) := w.mem.meas.alloc ms 0
      let (se, exprs) := w.mem.exprs.alloc es 0
      let (sr, sets) := w.mem.sets.alloc ts 0
      some { w with
        mem := { w.mem with meas := meas, exprs := exprs, sets := sets }
        builders := w.builders ++ [⟨a.input, sm, se, sr⟩] }
  | .copy j input =>
      (w.aggs[j]?).bind fun a => some { w with aggs := w.aggs ++ [{ a with input := input }] }
  | .setInput j input =>
      (w.aggs[j]?).bind fun a => some { w with aggs := w.aggs.set j { a with input := input } }
  | .setMeasures j k =>
      (w.aggs[j]?).bind fun a => (w.givenMeasures[k]?).bind fun s =>
      some { w with aggs := w.aggs.set j { a with measures := s } }
  | .setGroupingExpressions j es =>
      (w.aggs[j]?).bind fun a =>
      let (s, exprs) := w.mem.exprs.alloc es 0
      some { w with
        mem := { w.mem with exprs := exprs }, aggs := w.aggs.set j { a with exprs := s } }
  | .setGroupingReferences j ks =>
      (w.aggs[j]?).bind fun a => (ks.mapM fun k => w.givenRefs[k]?).bind fun ts =>
      let (s, sets) := w.mem.sets.alloc ts 0
      some { w with
        mem := { w.mem with sets := sets }, aggs := w.aggs.set j { a with refs := s } }

/-- The calls one after the other (`plan/builders.go:829-917`, `plan/relations.go:1215-1315`). -/
def AggWorld.run (g : Growth) : List AggCall → AggWorld → Option AggWorld
  | [], w => some w
  | c :: cs, w => (w.step g c).bind fun w => AggWorld.run g cs w

end Verif

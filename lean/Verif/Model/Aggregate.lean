import Verif.Model.RelBuild
import Verif.Model.Lambda
/-!
# Aggregates: grouping sets

Models `groupingExprs` of `plan/plan.go` and `AggregateRelBuilder` of `plan/builders.go`.
-/

namespace Verif

/-! ## Legacy grouping sets -/

/-- the search `for eIndex, existing := range groupingExpressions`, `plan/plan.go:63-69`, from index
`k` on; `none` if no expression is equal -/
noncomputable def findExpr (sh : Sharing) (e : Expr) : Nat → List Expr → Res (Option UInt32)
  | _, [] => .ok none
  | k, x :: xs =>
      Expr.equals sh x e >>= fun b =>
      if b then .ok (some (UInt32.ofNat k)) else findExpr sh e (k + 1) xs

/-- the loop over one group, `plan/plan.go:61-74`: the expressions listed and the references -/
noncomputable def groupRefs (sh : Sharing) : List Expr → List Expr → Res (List Expr × List UInt32)
  | es, [] => .ok (es, [])
  | es, e :: group =>
      findExpr sh e 0 es >>= fun found =>
      match found with
      | some i => groupRefs sh es group >>= fun (es, refs) => .ok (es, i :: refs)
      | none =>
          groupRefs sh (es ++ [e]) group >>= fun (es', refs) =>
          .ok (es', UInt32.ofNat es.length :: refs)

/-- the loop over the groups, `plan/plan.go:59-76` -/
noncomputable def groupingLoop (sh : Sharing) :
    List Expr → List (List Expr) → Res (List Expr × List (List UInt32))
  | es, [] => .ok (es, [])
  | es, g :: gs =>
      groupRefs sh es g >>= fun (es, refs) =>
      groupingLoop sh es gs >>= fun (es, rest) => .ok (es, refs :: rest)

/-- `groupingExprs`, `plan/plan.go:56-78` -/
noncomputable def groupingExprs (sh : Sharing) (groups : List (List Expr)) :
    Res (List Expr × List (List UInt32)) := groupingLoop sh [] groups

/-! ## The builder -/

/-- An expression as an interface value: what it points to, and its identity (Go compares pointers
with `==`). -/
structure PExpr where
  addr : Nat
  e : Expr

/-- `AggregateRelBuilder`, `plan/builders.go:822-827`; a nil input is `none`. Slices are their
contents (references are kept by `AddRollup` and `AddGroupingSet` without a copy). -/
structure AggBuilder where
  input : Option Rel
  measures : List Measure
  exprs : List PExpr := []
  refs : List (List UInt32) := []

/-- the search of `AddExpression`, `plan/builders.go:831-835`, from index `k` on -/
def findAddr (a : Nat) : Nat → List PExpr → Option UInt32
  | _, [] => none
  | k, x :: xs => if x.addr = a then some (UInt32.ofNat k) else findAddr a (k + 1) xs

/-- `AddExpression`, `plan/builders.go:830-839` -/
def AggBuilder.addExpression (b : AggBuilder) (e : PExpr) : AggBuilder × UInt32 :=
  match findAddr e.addr 0 b.exprs with
  | some i => (b, i)
  | none => ({ b with exprs := b.exprs ++ [e] }, UInt32.ofNat b.exprs.length)

/-- `extractGroup`, `plan/builders.go:867-875`, from bit `k` on -/
def extractGroup (combination : Nat) : Nat → List UInt32 → List UInt32
  | _, [] => []
  | bit, r :: rs =>
      if combination &&& (1 <<< bit) ≠ 0 then r :: extractGroup combination (bit + 1) rs
      else extractGroup combination (bit + 1) rs

/-- `maxGroupingSize`, `plan/builders.go:842` -/
def maxGroupingSize : Nat := 20

/-- `AddCube`, `plan/builders.go:847-863`; the combination indices 1 to 2^n - 1 in order -/
def AggBuilder.addCube (b : AggBuilder) (refs : List UInt32) : AggBuilder × Res Unit :=
  if refs.length > maxGroupingSize then (b, .err)
  else
    ({ b with refs := b.refs ++
        (List.range' 1 ((1 <<< refs.length) - 1)).map (fun k => extractGroup k 0 refs) }, .ok ())

/-- the loop of `AddRollup`, `plan/builders.go:878-883`: `i` further prefixes -/
def rollupSets (refs : List UInt32) : Nat → List (List UInt32)
  | 0 => []
  | i + 1 => refs.take (i + 1) :: rollupSets refs i

/-- `AddRollup`, `plan/builders.go:878-883` -/
def AggBuilder.addRollup (b : AggBuilder) (refs : List UInt32) : AggBuilder :=
  { b with refs := b.refs ++ rollupSets refs refs.length }

/-- `AddGroupingSet`, `plan/builders.go:886-888` -/
def AggBuilder.addGroupingSet (b : AggBuilder) (refs : List UInt32) : AggBuilder :=
  { b with refs := b.refs ++ [refs] }

/-- `validate`, `plan/builders.go:919-947` -/
def AggBuilder.validate (b : AggBuilder) : Bool :=
  b.input.isSome &&
  !(b.measures.length = 0 ∧ b.refs.length = 0) &&
  !(b.measures.length = 0 ∧ b.exprs.length = 0) &&
  !(b.exprs.any fun x => x.e.isNil) &&
  !(b.refs.any fun l => l.any fun r => decide (UInt32.ofNat b.exprs.length ≤ r))

/-- `Build`, `plan/builders.go:903-917` -/
def AggBuilder.build (b : AggBuilder) : Res Rel :=
  if b.validate then
    match b.input with
    | some i => .ok (.aggregate {} i b.measures (b.exprs.map (·.e)) b.refs none)
    | none => .err
  else .err

/-- A call on the builder, `plan/builders.go:829-901` -/
inductive AggOp where
  | addExpression (e : PExpr)
  | addCube (refs : List UInt32)
  | addRollup (refs : List UInt32)
  | addGroupingSet (refs : List UInt32)
  | replaceInput (r : Option Rel)
  | clearMeasures
  | clearGrouping

/-- The builder after a call; `ReplaceInput`, `ClearMeasures` and `ClearGrouping` are
`plan/builders.go:890-901`. -/
def AggBuilder.step (b : AggBuilder) : AggOp → AggBuilder
  | .addExpression e => (b.addExpression e).1
  | .addCube rs => (b.addCube rs).1
  | .addRollup rs => b.addRollup rs
  | .addGroupingSet rs => b.addGroupingSet rs
  | .replaceInput r => { b with input := r }
  | .clearMeasures => { b with measures := [] }
  | .clearGrouping => { b with exprs := [], refs := [] }

/-- The builder of `RelBuilder.AggregateRel(input, measures)`, `plan/builders.go:818-820`, after the
calls `ops`. -/
def AggBuilder.after (input : Option Rel) (measures : List Measure) (ops : List AggOp) : AggBuilder :=
  ops.foldl AggBuilder.step { input := input, measures := measures }

/-- the loop of `AggregateExprs` over one group, `plan/builders.go:329-332` -/
def addExpressions (b : AggBuilder) : List PExpr → AggBuilder × List UInt32
  | [] => (b, [])
  | e :: es =>
      let (b, i) := b.addExpression e
      let (b, is) := addExpressions b es
      (b, i :: is)

/-- the loop of `AggregateExprs` over the groups, `plan/builders.go:327-334` -/
def addGroups (b : AggBuilder) : List (List PExpr) → AggBuilder
  | [] => b
  | g :: gs =>
      let (b, set) := addExpressions b g
      addGroups (b.addGroupingSet set) gs

/-- `AggregateExprs`, `plan/builders.go:325-336` -/
def aggregateExprs (input : Option Rel) (measures : List Measure) (groups : List (List PExpr)) :
    Res Rel :=
  (addGroups { input := input, measures := measures } groups).build

/-- `RootFieldRef`, `plan/builders.go:253-261` -/
def rootFieldRef (input : Rel) (index : Int32) : Res Expr :=
  input.recordType >>= fun base =>
  if index < 0 ∨ fieldCount base < index then .err
  else newFieldRef .rootReference (.seg (.structField index .nil)) (some base)

/-- `JoinedRecordFieldRef`, `plan/builders.go:243-251` (contents only; that `append` may write into
the left record type is as in `RMem.append`) -/
def joinedRecordFieldRef (left right : Rel) (index : Int32) : Res Expr :=
  left.recordType >>= fun ls => right.recordType >>= fun rs =>
  if index < 0 ∨ Int32.ofNat (ls ++ rs).length < index then .err
  else newFieldRef .rootReference (.seg (.structField index .nil)) (some (ls ++ rs))

/-- the loop of `AggregateColumns`, `plan/builders.go:312-319`; each `RootFieldRef` is a new object,
identified here by its position -/
def addColumns (input : Rel) : AggBuilder → Nat → List Int32 → Res (AggBuilder × List UInt32)
  | b, _, [] => .ok (b, [])
  | b, k, c :: cs =>
      rootFieldRef input c >>= fun ref =>
      let (b, i) := b.addExpression ⟨k, ref⟩
      addColumns input b (k + 1) cs >>= fun (b, is) => .ok (b, i :: is)

/-- `AggregateColumns`, `plan/builders.go:308-323`; with a nil input and columns, `RootFieldRef`
panics -/
def aggregateByColumns (input : Option Rel) (measures : List Measure) (cols : List Int32) : Res Rel :=
  if cols.length > 0 then
    match input with
    | none => .panic
    | some i =>
      addColumns i { input := input, measures := measures } 0 cols >>= fun (b, refs) =>
      (b.addGroupingSet refs).build
  else AggBuilder.build { input := input, measures := measures }

end Verif

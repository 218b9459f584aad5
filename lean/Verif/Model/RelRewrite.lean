import Verif.Model.Rel
/-!
# Rewriting the expressions of a relation

Models the `CopyWithExpressionRewrite` methods of `plan/relations.go`.

The code decides whether anything changed by comparing interface values with `==`, which for
pointers compares addresses. A rewrite function therefore returns, next to the new expression,
whether it is `==` to the one it was given; the new inputs come with the same information about the
input at their position. The result says whether the receiver itself is returned.
Simplification: a rewrite function does not modify the expression it is given.
-/

namespace Verif

/-- `RewriteFunc`, `plan/plan.go:366`; the flag is the outcome of `==` between the result and the
argument. -/
abbrev RewriteFn := Expr → Res (Expr × Bool)

/-- A new input, and whether it is `==` to the input now at its position. -/
abbrev NewInput := Rel × Bool

/-- `slices.Equal(newInputs, x.GetInputs())`, `plan/relations.go:780,941,1014,1559,1673,1799,2119,2236,
2354`; for one input `newInputs[0] == x.input`, 1093, 1287, 1394, 1474 -/
def sameInputs (r : Rel) (ins : List NewInput) : Bool :=
  ins.length == r.getInputs.length && ins.all (·.2)

/-- the rewriting loops over lists of expressions, `plan/relations.go:774-779,934-940,1269-1275`, with
the conjunction of the comparisons (780, 941, 1274) -/
def rewriteAll (f : RewriteFn) : List Expr → Res (List Expr × Bool)
  | [] => .ok ([], true)
  | e :: es =>
      f e >>= fun (e', b) => rewriteAll f es >>= fun (es', b') => .ok (e' :: es', b && b')

/-- the rewriting of sort fields, `plan/relations.go:1385-1393` -/
def rewriteSorts (f : RewriteFn) : List ESort → Res (List ESort × Bool)
  | [] => .ok ([], true)
  | .mk e k :: ss =>
      f e >>= fun (e', b) => rewriteSorts f ss >>= fun (ss', b') => .ok (.mk e' k :: ss', b && b')

/-- an expression as function argument: assigning a nil expression to a `types.FuncArg` gives a nil
argument (`newF.SetArg(i, newExp)`, `plan/relations.go:1253`, `expr/functions.go:908-910`) -/
def argOf (e : Expr) : EArg := if e.isNil then .nil else .expr e

/-- the loop of `rewriteAggregateFunc`, `plan/relations.go:1245-1256`: a nil argument is not an
expression -/
def rewriteArgs (f : RewriteFn) : List EArg → Res (List EArg × Bool)
  | [] => .ok ([], true)
  | .expr e :: as =>
      if e.isNil then rewriteArgs f as >>= fun (as', b) => .ok (.expr e :: as', b)
      else
        f e >>= fun (e', b) =>
        rewriteArgs f as >>= fun (as', b') => .ok (argOf e' :: as', b && b')
  | a :: as => rewriteArgs f as >>= fun (as', b) => .ok (a :: as', b)

/-- `rewriteAggregateFunc`, `plan/relations.go:1239-1261`; `Clone` is `expr/functions.go:890-905` -/
def rewriteAggFn (f : RewriteFn) : Option AggFn → Res (Option AggFn × Bool)
  | none => .ok (none, true)
  | some fn =>
      rewriteArgs f fn.args >>= fun (args, same) =>
      if same then .ok (some fn, true) else .ok (some { fn with args := args }, false)

/-- the loop over the measures, `plan/relations.go:1276-1286` -/
def rewriteMeasures (f : RewriteFn) : List Measure → Res (List Measure × Bool)
  | [] => .ok ([], true)
  | m :: ms =>
      f m.filter >>= fun (flt, b) =>
      rewriteAggFn f m.measure >>= fun (fn, b') =>
      rewriteMeasures f ms >>= fun (ms', b'') => .ok (⟨fn, flt⟩ :: ms', b && b' && b'')

/-- the inner loop over the values of a virtual table, `plan/relations.go:322-329`: `unchanged` is
`valuesUnchanged` so far, `Equals` is not called once it is false -/
noncomputable def rewriteTableRow (sh : Sharing) (f : RewriteFn) (unchanged : Bool) :
    List Expr → Res (List Expr × Bool)
  | [] => .ok ([], unchanged)
  | e :: es =>
      f e >>= fun (e', _) =>
      (if unchanged then e'.equals sh e else .ok false) >>= fun b =>
      rewriteTableRow sh f b es >>= fun (es', b') => .ok (e' :: es', b')

/-- the outer loop, `plan/relations.go:320-331` -/
noncomputable def rewriteTableRows (sh : Sharing) (f : RewriteFn) (unchanged : Bool) :
    List (List Expr) → Res (List (List Expr) × Bool)
  | [] => .ok ([], unchanged)
  | row :: rows =>
      rewriteTableRow sh f unchanged row >>= fun (row', b) =>
      rewriteTableRows sh f b rows >>= fun (rows', b') => .ok (row' :: rows', b')

/-- The `CopyWithExpressionRewrite` methods: reads `plan/relations.go:249-260,308-336,379-390,485-496,
678-689` with `copyExpressions`, `getExpressions` and `updateFilters` (140-158), project 769-787, join
929-948, cross 1013-1018, fetch 1089-1097, aggregate 1263-1295, sort 1380-1401, filter 1466-1481,
set 1558-1563, extensions 1672-1677, 1732-1734, 1798-1803, hash join 2111-2126, merge join 2228-2243,
write 2353-2358. -/
noncomputable def Rel.copyRewrite (sh : Sharing) (f : RewriteFn) (r : Rel) (ins : List NewInput) :
    Res (Rel × Bool) :=
  match r with
  | .read c b k =>
      f b.filter >>= fun (flt, s₁) =>
      f b.bestEffort >>= fun (be, s₂) =>
      if s₁ && s₂ then .ok (.read c b k, true)
      else
        let b' := { b with filter := flt, bestEffort := be }
        match k with
        | .virt vs =>
            rewriteTableRows sh f true vs >>= fun (vs', unchanged) =>
            .ok (.read c b' (.virt (if unchanged then vs else vs')), false)
        | _ => .ok (.read c b' k, false)
  | .project c i es a =>
      match ins with
      | [(j, _)] =>
          rewriteAll f es >>= fun (es', same) =>
          if same && sameInputs (.project c i es a) ins then .ok (.project c i es a, true)
          else .ok (.project c j es' a, false)
      | _ => .err
  | .join c l r e p t a =>
      match ins with
      | [(l', _), (r', _)] =>
          f e >>= fun (e', s₁) =>
          f p >>= fun (p', s₂) =>
          if s₁ && s₂ && sameInputs (.join c l r e p t a) ins then .ok (.join c l r e p t a, true)
          else .ok (.join c l' r' e' p' t a, false)
      | _ => .err
  | .fetch c i o n a =>
      match ins with
      | [(j, same)] => if same then .ok (.fetch c i o n a, true) else .ok (.fetch c j o n a, false)
      | _ => .err
  | .aggregate c i ms es rs a =>
      match ins with
      | [(j, same)] =>
          rewriteAll f es >>= fun (es', s₁) =>
          rewriteMeasures f ms >>= fun (ms', s₂) =>
          if s₁ && s₂ && same then .ok (.aggregate c i ms es rs a, true)
          else .ok (.aggregate c j ms' es' rs a, false)
      | _ => .err
  | .sort c i ss a =>
      match ins with
      | [(j, same)] =>
          rewriteSorts f ss >>= fun (ss', s) =>
          if s && same then .ok (.sort c i ss a, true) else .ok (.sort c j ss' a, false)
      | _ => .err
  | .filter c i e a =>
      match ins with
      | [(j, same)] =>
          f e >>= fun (e', s) =>
          if same && s then .ok (.filter c i e a, true) else .ok (.filter c j e' a, false)
      | _ => .err
  | .extLeaf c d => .ok (.extLeaf c d, true)
  | .hashJoin c l r ks p t a =>
      match ins with
      | [(l', _), (r', _)] =>
          f p >>= fun (p', s) =>
          if s && sameInputs (.hashJoin c l r ks p t a) ins then
            .ok (.hashJoin c l r ks p t a, true)
          else .ok (.hashJoin c l' r' ks p' t a, false)
      | _ => .err
  | .mergeJoin c l r ks p t a =>
      match ins with
      | [(l', _), (r', _)] =>
          f p >>= fun (p', s) =>
          if s && sameInputs (.mergeJoin c l r ks p t a) ins then
            .ok (.mergeJoin c l r ks p t a, true)
          else .ok (.mergeJoin c l' r' ks p' t a, false)
      | _ => .err
  | r =>
      -- cross, set, extension single and multi, write
      if sameInputs r ins then .ok (r, true)
      else r.copy (ins.map (·.1)) >>= fun r' => .ok (r', false)

end Verif

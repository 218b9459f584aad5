import Verif.Model.RelRewrite
/-!
# Vocabulary for rewriting expressions
-/

namespace Verif

/-- A function argument with `g` applied to the expression it is, if it is one. (A nil expression is
a nil argument.) -/
def EArg.mapExpr (g : Expr → Expr) : EArg → EArg
  | .expr .nil => .expr .nil
  | .expr e => match g e with
    | .nil => .nil
    | e' => .expr e'
  | a => a

/-- A sort field with `g` applied to its expression. -/
def ESort.mapExpr (g : Expr → Expr) : ESort → ESort
  | .mk e k => .mk (g e) k

/-- A join key with `g` applied to both sides. -/
def JoinKey.mapExpr (g : Expr → Expr) (k : JoinKey) : JoinKey :=
  { k with left := g k.left, right := g k.right }

/-- A measure with `g` applied to its filter, and to the arguments and sort fields of its function. -/
def Measure.mapExpr (g : Expr → Expr) (m : Measure) : Measure where
  filter := g m.filter
  measure := m.measure.map fun fn =>
    { fn with args := fn.args.map (EArg.mapExpr g), sorts := fn.sorts.map (ESort.mapExpr g) }

/-- The relation with `g` applied to each expression it holds itself (not those of its inputs).
Optional expressions that are absent count as nil. -/
def Rel.mapExpr (g : Expr → Expr) : Rel → Rel
  | .read c b k => .read c { b with filter := g b.filter, bestEffort := g b.bestEffort } <| match k with
    | .virt vs => .virt (vs.map (List.map g))
    | k => k
  | .project c i es a => .project c i (es.map g) a
  | .join c l r e p t a => .join c l r (g e) (g p) t a
  | .aggregate c i ms es rs a => .aggregate c i (ms.map (Measure.mapExpr g)) (es.map g) rs a
  | .sort c i ss a => .sort c i (ss.map (ESort.mapExpr g)) a
  | .filter c i e a => .filter c i (g e) a
  | .hashJoin c l r ks p t a => .hashJoin c l r (ks.map (JoinKey.mapExpr g)) (g p) t a
  | .mergeJoin c l r ks p t a => .mergeJoin c l r (ks.map (JoinKey.mapExpr g)) (g p) t a
  | r => r

/-- The expression of a function argument that is one. -/
def EArg.ownExpr : EArg → List Expr
  | .expr .nil => []
  | .expr e => [e]
  | _ => []

/-- The expression of a sort field. -/
def ESort.key : ESort → Expr
  | .mk e _ => e

/-- The expressions of a relation that rewriting looks at, absent ones as nil. -/
def Rel.looked : Rel → List Expr
  | .read _ b _ => [b.filter, b.bestEffort]
  | .project _ _ es _ => es
  | .join _ _ _ e p _ _ => [e, p]
  | .aggregate _ _ ms es _ _ =>
      es ++ ms.flatMap fun m => m.filter :: (m.measure.toList.flatMap (·.args)).flatMap EArg.ownExpr
  | .sort _ _ ss _ => ss.map ESort.key
  | .filter _ _ e _ => [e]
  | .hashJoin _ _ _ _ p _ _ => [p]
  | .mergeJoin _ _ _ _ p _ _ => [p]
  | _ => []

/-- The other expressions of a relation: the values of a virtual table, the sort fields of aggregate
functions, the keys of hash and merge joins. -/
def Rel.overlooked : Rel → List Expr
  | .read _ _ (.virt vs) => vs.flatten
  | .aggregate _ _ ms _ _ _ => (ms.flatMap fun m => m.measure.toList.flatMap (·.sorts)).map ESort.key
  | .hashJoin _ _ _ ks _ _ _ => ks.flatMap fun k => [k.left, k.right]
  | .mergeJoin _ _ _ ks _ _ _ => ks.flatMap fun k => [k.left, k.right]
  | _ => []

/-- The relation with other inputs; the list is as long as that of its inputs. -/
def Rel.withInputs : Rel → List Rel → Rel
  | .project c _ es a, [i] => .project c i es a
  | .join c _ _ e p t a, [l, r] => .join c l r e p t a
  | .cross c _ _ a, [l, r] => .cross c l r a
  | .fetch c _ o n a, [i] => .fetch c i o n a
  | .aggregate c _ ms es rs a, [i] => .aggregate c i ms es rs a
  | .sort c _ ss a, [i] => .sort c i ss a
  | .filter c _ e a, [i] => .filter c i e a
  | .set c _ op a, is => .set c is op a
  | .extSingle c _ d, [i] => .extSingle c i d
  | .extMulti c _ d, is => .extMulti c is d
  | .hashJoin c _ _ ks p t a, [l, r] => .hashJoin c l r ks p t a
  | .mergeJoin c _ _ ks p t a, [l, r] => .mergeJoin c l r ks p t a
  | .write c ns a s op _ m, [i] => .write c ns a s op i m
  | r, _ => r

/-- Relations with a fixed, positive number of inputs. -/
def Rel.FixedInputs : Rel → Prop
  | .read _ _ _ | .extLeaf _ _ | .set _ _ _ _ | .extMulti _ _ _ => False
  | _ => True

/-- `f` replaces each expression of the list as `g` says; when it reports the result to be the
expression it was given, then it is. -/
def Replaces (f : RewriteFn) (g : Expr → Expr) (es : List Expr) : Prop :=
  ∀ e ∈ es, ∃ same, f e = .ok (g e, same) ∧ (same = true → g e = e)

/-- The new inputs that are reported to be the old ones are the old ones. -/
def HonestInputs (r : Rel) (ins : List NewInput) : Prop :=
  ∀ i j : Rel, ∀ k : Nat, r.getInputs[k]? = some i → ins[k]? = some (j, true) → j = i

/-- C48 in full: with as many inputs as before, the result is the relation with every expression
replaced and the new inputs; the receiver itself when every expression and input is as before; and
with another number of inputs there is an error. -/
def RewritesWell (sh : Sharing) (f : RewriteFn) (g : Expr → Expr) (r : Rel) (ins : List NewInput) :
    Prop :=
  (ins.length = r.getInputs.length →
    ∃ same, r.copyRewrite sh f ins = .ok ((r.withInputs (ins.map (·.1))).mapExpr g, same) ∧
      (same = true → (r.withInputs (ins.map (·.1))).mapExpr g = r)) ∧
  (ins.length ≠ r.getInputs.length → r.copyRewrite sh f ins = .err)

end Verif

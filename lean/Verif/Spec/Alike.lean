import Verif.Spec.Rows
import Verif.Spec.RelRewrite
/-!
# Specification vocabulary: relations that differ only in their expressions
-/

namespace Verif

/-- Function arguments that are the same, or expressions related by `R`. (As an argument a nil
expression is a nil argument.) -/
def EArg.Alike (R : Expr → Expr → Prop) (a b : EArg) : Prop :=
  b = a ∨ ∃ e e', a = .expr e ∧ R e e' ∧ (b = .expr e' ∨ (e'.isNil = true ∧ b = .nil))

/-- Sort fields with keys related by `R` and the same direction. -/
def ESort.Alike (R : Expr → Expr → Prop) : ESort → ESort → Prop
  | .mk e k, .mk e' k' => R e e' ∧ k' = k

/-- Aggregate functions that are the same apart from arguments and sort fields, which are alike. -/
def AggFn.Alike (R : Expr → Expr → Prop) (f f' : AggFn) : Prop :=
  f'.a = f.a ∧ f'.phase = f.phase ∧ f'.invocation = f.invocation ∧
    List.Forall₂ (EArg.Alike R) f.args f'.args ∧ List.Forall₂ (ESort.Alike R) f.sorts f'.sorts

/-- Measures with alike functions, or no function, and filters related by `R`. -/
def Measure.Alike (R : Expr → Expr → Prop) (m m' : Measure) : Prop :=
  R m.filter m'.filter ∧
    ((m.measure = none ∧ m'.measure = none) ∨
      ∃ f f', m.measure = some f ∧ m'.measure = some f' ∧ f.Alike R f')

/-- Tables that are the same, or virtual tables of the same size with values related by `R`. -/
def ReadKind.Alike (R : Expr → Expr → Prop) (k k' : ReadKind) : Prop :=
  k' = k ∨ ∃ vs vs', k = .virt vs ∧ k' = .virt vs' ∧ List.Forall₂ (List.Forall₂ R) vs vs'

mutual
/-- The relations are of one kind, agree in everything but their expressions and inputs, each
expression is related by `R` to the one at its place, and so on in the inputs. -/
def Rel.Alike (R : Expr → Expr → Prop) : Rel → Rel → Prop
  | .read c b k, r => ∃ flt be k', R b.filter flt ∧ R b.bestEffort be ∧ k.Alike R k' ∧
      r = .read c { b with filter := flt, bestEffort := be } k'
  | .project c i es a, r => ∃ i' es', i.Alike R i' ∧ List.Forall₂ R es es' ∧ r = .project c i' es' a
  | .join c x y e p t a, r => ∃ x' y' e' p', x.Alike R x' ∧ y.Alike R y' ∧ R e e' ∧ R p p' ∧
      r = .join c x' y' e' p' t a
  | .cross c x y a, r => ∃ x' y', x.Alike R x' ∧ y.Alike R y' ∧ r = .cross c x' y' a
  | .fetch c i o n a, r => ∃ i', i.Alike R i' ∧ r = .fetch c i' o n a
  | .aggregate c i ms es sets a, r => ∃ i' ms' es', i.Alike R i' ∧
      List.Forall₂ (Measure.Alike R) ms ms' ∧ List.Forall₂ R es es' ∧
      r = .aggregate c i' ms' es' sets a
  | .sort c i ss a, r => ∃ i' ss', i.Alike R i' ∧ List.Forall₂ (ESort.Alike R) ss ss' ∧
      r = .sort c i' ss' a
  | .filter c i e a, r => ∃ i' e', i.Alike R i' ∧ R e e' ∧ r = .filter c i' e' a
  | .set c is op a, r => ∃ is', Rel.AllAlike R is is' ∧ r = .set c is' op a
  | .extSingle c i d, r => ∃ i', i.Alike R i' ∧ r = .extSingle c i' d
  | .extLeaf c d, r => r = .extLeaf c d
  | .extMulti c is d, r => ∃ is', Rel.AllAlike R is is' ∧ r = .extMulti c is' d
  | .hashJoin c x y ks p t a, r => ∃ x' y' p', x.Alike R x' ∧ y.Alike R y' ∧ R p p' ∧
      r = .hashJoin c x' y' ks p' t a
  | .mergeJoin c x y ks p t a, r => ∃ x' y' p', x.Alike R x' ∧ y.Alike R y' ∧ R p p' ∧
      r = .mergeJoin c x' y' ks p' t a
  | .write c ns a s op i m, r => ∃ i', i.Alike R i' ∧ r = .write c ns a s op i' m
/-- ... pairwise -/
def Rel.AllAlike (R : Expr → Expr → Prop) : List Rel → List Rel → Prop
  | [], rs => rs = []
  | i :: is, rs => ∃ i' is', i.Alike R i' ∧ Rel.AllAlike R is is' ∧ rs = i' :: is'
end

/-- `r'` is what becomes of the tree `r` when its expressions are rewritten from the leaves to the
root: each relation by `CopyWithExpressionRewrite` with what became of its inputs. -/
inductive RewrittenTree (sh : Sharing) (f : RewriteFn) : Rel → Rel → Prop
  | node (r : Rel) (ins : List NewInput) (out : Rel) (same : Bool)
      (inputs : ins.length = r.getInputs.length)
      (below : ∀ (k : Nat) (i : Rel) (j : NewInput), r.getInputs[k]? = some i → ins[k]? = some j →
        RewrittenTree sh f i j.1)
      (here : r.copyRewrite sh f ins = .ok (out, same)) : RewrittenTree sh f r out

/-- The expressions are both absent or both present, state the same type, and have the same values
in every world. -/
def Expr.SameMeaning (e e' : Expr) : Prop :=
  (e.isNil = true ↔ e'.isNil = true) ∧ e'.getType = e.getType ∧
    ∀ w v, e'.Yields w v ↔ e.Yields w v

end Verif

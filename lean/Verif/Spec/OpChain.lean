import Verif.Model.TypeText
import Verif.Spec.TypeText
/-!
# Chains of operators without parentheses
-/

namespace Verif

/-- the text of the operands and operators after the first operand -/
def restText : List (DOp × DExpr) → String
  | [] => ""
  | (op, e) :: os => " " ++ op.str ++ " " ++ e.string ++ restText os

/-- A derivation that gives `y` the value of `x op₁ e₁ op₂ e₂ …`, written without parentheses, and has the
type `t`. -/
def chainText (y : String) (x : DExpr) (os : List (DOp × DExpr)) (t : FTy) : String :=
  y ++ " = " ++ x.string ++ restText os ++ "\n" ++ t.string

/-- what the derivation is when the chain is read as `e` -/
def chainMeaning (y : String) (e : DExpr) (t : FTy) : FTy := .derivation [(y, e)] t

/-- the usual precedence of operators: `*` and `/`, then `+` and `-`, then comparisons, `and`, `or` -/
def DOp.precedence : DOp → Nat
  | .multiply => 5
  | .divide => 5
  | .plus => 4
  | .minus => 4
  | .lt => 3
  | .lte => 3
  | .gt => 3
  | .gte => 3
  | .eq => 3
  | .neq => 3
  | .and => 2
  | .or => 1
  | .unknown => 0

/-- a number or a name -/
inductive IsAtom : DExpr → Prop
  | num (v) : IsAtom (.num v)
  | name (s) : IsName s → IsAtom (.name s)

/-- `Spells e x os`: read from left to right, without parentheses, `e` is `x op₁ e₁ op₂ e₂ …` with numbers
and names as operands. -/
inductive Spells : DExpr → DExpr → List (DOp × DExpr) → Prop
  | atom (x) : IsAtom x → Spells x x []
  | bin (op l r x os y ps) : Spells l x os → Spells r y ps → Spells (.bin op l r) x (os ++ (op, y) :: ps)

/-- Operators are applied in the usual order: the left side of an operator has no operator of lower
precedence at its top, and the right side only one of higher precedence. -/
inductive UsualOrder : DExpr → Prop
  | atom (x) : IsAtom x → UsualOrder x
  | bin (op l r) : UsualOrder l → UsualOrder r →
      (∀ op' a b, l = .bin op' a b → op.precedence ≤ op'.precedence) →
      (∀ op' a b, r = .bin op' a b → op.precedence < op'.precedence) → UsualOrder (.bin op l r)

/-- everything up to an operator is its left side -/
def leftToRight (x : DExpr) (os : List (DOp × DExpr)) : DExpr := os.foldl (fun l o => .bin o.1 l o.2) x

/-- each precedence is at most the one before it -/
def NoHigherLater : List (DOp × DExpr) → Prop
  | [] => True
  | [_] => True
  | a :: b :: os => b.1.precedence ≤ a.1.precedence ∧ NoHigherLater (b :: os)

end Verif

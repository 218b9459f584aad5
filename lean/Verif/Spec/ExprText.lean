import Verif.Model.ExprText
import Verif.Spec.RefText
import Verif.Spec.Plan
import Verif.Model.ExprProto
/-!
# Expressions that can be printed
-/

namespace Verif

/-- What an expression itself needs to be printed, its parts apart: it is there, a literal can be printed, a reference
has a path, a call has a declaration, its arguments are there, and its sort fields say how to sort. -/
def Expr.Ready (g : ExprFmt) : Expr → Prop
  | .nil => False
  | .lit l => ∃ s, l.string g.lit = .ok s
  | .fieldRef _ (.seg s) _ => s ≠ .nil ∧ s.KeysPrint g.lit
  | .fieldRef _ _ _ => False
  | .scalar a args => a.declaration ≠ "" ∧ EArg.nil ∉ args
  | .window a _ args sorts _ => a.declaration ≠ "" ∧ EArg.nil ∉ args ∧ ∀ e, ESort.mk e .nil ∉ sorts
  | _ => True

/-- What a window ends at, in words. -/
def Bound.words : Bound → Bytes
  | .preceding n => intText n.toInt ++ utf8 " PRECEDING"
  | .following n => intText n.toInt ++ utf8 " FOLLOWING"
  | .currentRow => utf8 "CURRENT ROW"
  | .unbounded => utf8 "UNBOUNDED"

/-- The arguments of a call that are not expressions. -/
def EArg.words : EArg → List Bytes
  | .type t => [utf8 t.string]
  | .enum s => [utf8 s]
  | _ => []

/-- What an expression says itself, its parts apart: the types it names, a call its name, options and bounds, a lambda
its parameters with their numbers, a subquery its relation and what it asks of it. -/
def Expr.Says (g : ExprFmt) (b : Bytes) : Expr → Prop
  | .cast ty _ fail => b = utf8 ty.string ∨ b = g.castFail fail
  | .dynParam ty ref => b = intText ref.toNat ∨ b = utf8 ty.string
  | .scalar a args => b = g.name a.declaration ∨ b = utf8 a.outputType.string ∨ (∃ x ∈ args, b ∈ x.words) ∨
      ∃ o ∈ a.options, b = utf8 o.1 ∨ ∃ p ∈ o.2, b = utf8 p
  | .window a w args sorts _ => b = g.name a.declaration ∨ b = utf8 a.outputType.string ∨ (∃ x ∈ args, b ∈ x.words) ∨
      (∃ o ∈ a.options, b = utf8 o.1 ∨ b = g.prefs o.2) ∨ (∃ e d, ESort.mk e (.direction d) ∈ sorts ∧ b = g.direction d) ∨
      (∃ e r, ESort.mk e (.func r) ∈ sorts ∧ b = intText r.toNat) ∨
      (∃ x, (w.lower = some x ∨ w.upper = some x) ∧ b = x.words) ∨ b = g.phase w.phase ∨ b = g.invocation w.invocation
  | .lambda _ _ ps _ => ∃ (i : Nat) (t : Ty), ps[i]? = some t ∧ b = utf8 "$" ++ intText i ++ utf8 ": " ++ utf8 t.string
  | .mapE n v _ | .structE n v _ | .listE n v _ => b = intText v.toNat ∨ (n = true ∧ b = utf8 "?")
  | .scalarSubquery r | .inPredicate _ r => b = g.rel (some r)
  | .setPredicate op r => b = g.rel (some r) ∨ (op = 1 ∧ b = utf8 "EXISTS") ∨ (op = 2 ∧ b = utf8 "UNIQUE")
  | .setComparison red cmp _ r => b = g.rel r ∨ (red = 1 ∧ b = utf8 "ANY") ∨ (red = 2 ∧ b = utf8 "ALL") ∨
      (cmp = 1 ∧ b = utf8 " = ") ∨ (cmp = 2 ∧ b = utf8 " != ") ∨ (cmp = 3 ∧ b = utf8 " < ") ∨ (cmp = 4 ∧ b = utf8 " > ") ∨
      (cmp = 5 ∧ b = utf8 " <= ") ∨ (cmp = 6 ∧ b = utf8 " >= ")
  | _ => False

/-- The literal is a decimal of fewer than 16 bytes. -/
def Lit.ShortDecimal (l : Lit) : Prop := ∃ b n v s p, l = .proto (.bytes b) (.decimal n v s p) ∧ b.length < 16

/-- The keys on a path. -/
def Seg.keyList : Seg → List Lit
  | .nil => []
  | .mapKey k c => k :: c.keyList
  | .structField _ c => c.keyList
  | .listElement _ c => c.keyList

/-- What can keep an expression that was read from being printed: it is a short decimal, or a reference that has no path
or goes through a key that is nil or a short decimal. -/
def Expr.Unprintable : Expr → Prop
  | .lit l => l.ShortDecimal
  | .fieldRef _ (.seg s) _ => ∃ k ∈ s.keyList, k = .nil ∨ k.ShortDecimal
  | .fieldRef _ _ _ => True
  | _ => False

/-- All declarations in the registry have names. -/
def Reg.Named (reg : Reg) : Prop :=
  (∀ r n, reg.scalar r = some n → n ≠ "") ∧ (∀ r n, reg.window r = some n → n ≠ "") ∧
  (∀ id r n, reg.custom id = .ok (r, n) → n ≠ "")

end Verif

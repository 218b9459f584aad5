import Verif.Spec.FuncCall
import Verif.Spec.Dialect
import Verif.Spec.LocalTypes
/-!
# Vocabulary for calls looked up in dialects

Nothing here is used by the model.
-/

namespace Verif

/-- Types that no dialect file can list. -/
def Ty.Unlisted : Ty → Prop
  | .enum .. | .struct .. | .func .. | .list .. | .map .. | .intervalCompound .. => True
  | _ => False

/-- The dialect has a name for the type of every expression among the arguments. -/
def LocalRegistry.NamesValues (r : LocalRegistry) (args : List EArg) : Prop :=
  ∀ e, EArg.expr e ∈ args → ∃ t n, e.getType = .ok t ∧ r.types.toLocal t = .ok n

/-- The dialect allows every value of every option. -/
def LocalFn.Allows (fold : String → String → Bool) (f : LocalFn) (options : List (String × List String)) : Prop :=
  ∀ o ∈ options, ∀ v ∈ o.2, ∃ p ∈ f.options, p.1 = o.1 ∧ ∃ w ∈ p.2, fold w v = true

/-- `f` is a function of kind `k` of the local registry with this id, which no function of another kind has, and its
options have distinct names (they are a Go map). -/
structure LocalRegistry.Lists (r : LocalRegistry) (k : FuncKind) (id : ExtId) (f : LocalFn) : Prop where
  mem : f ∈ r.ofKind k
  named : f.fn.id = id
  options : (f.options.map Prod.fst).Nodup
  only : ∀ k', k' ≠ k → ∀ g ∈ r.ofKind k', g.fn.id ≠ id

end Verif

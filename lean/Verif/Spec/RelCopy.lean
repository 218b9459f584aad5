import Verif.Model.RelProto
import Verif.Spec.RelRewrite
import Verif.Spec.Rows
/-!
# Specification vocabulary for copies of relations
-/

namespace Verif

/-- Two relations have the same columns, and in every engine the same rows. -/
def Rel.Equivalent (r r' : Rel) : Prop :=
  r'.recordType = r.recordType ∧ ∀ g vs, r'.Yields g vs ↔ r.Yields g vs

/-- `r'` comes from `r` by replacing parts by equivalent ones, where what is above a replaced part is
rebuilt with `Copy`, in any number of steps. -/
inductive Replaced : Rel → Rel → Prop
  | swap (r r' : Rel) : r.Equivalent r' → Replaced r r'
  | copy (r : Rel) (ins : List Rel) (r' : Rel) : ins.length = r.getInputs.length →
      (∀ (k : Nat) (i j : Rel), r.getInputs[k]? = some i → ins[k]? = some j → Replaced i j) →
      r.copy ins = .ok r' → Replaced r r'
  | steps (r r' r'' : Rel) : Replaced r r' → Replaced r' r'' → Replaced r r''

/-- The field `advanced_extension` of the message of a relation; relations without such a field have it
in their common part. -/
def RelMsg.advanced : RelMsg → Option Nat
  | .read _ _ _ _ _ adv _ => adv
  | .project _ _ _ adv => adv
  | .join _ _ _ _ _ _ adv => adv
  | .cross _ _ _ adv => adv
  | .fetch _ _ _ _ adv => adv
  | .aggregate _ _ _ _ _ adv => adv
  | .sort _ _ _ adv => adv
  | .filter _ _ _ adv => adv
  | .set _ _ _ adv => adv
  | .hashJoin _ _ _ _ _ _ _ _ adv => adv
  | .mergeJoin _ _ _ _ _ _ _ _ adv => adv
  | .extSingle c _ _ | .extLeaf c _ | .extMulti c _ _ | .write c _ _ _ _ _ => c.bind (·.adv)
  | .nil | .unset | .other => none

end Verif

import Verif.Spec.RelProto
import Verif.Spec.Plan
/-!
# Vocabulary for plan round trips
-/

namespace Verif

/-- A relation of a plan that can be carried: a root whose names label its columns (for relations
whose columns are known, see `isRecordTypeSupported`), or a relation, not both. -/
def Relation.Sendable (reg : RelReg) (r : Relation) : Prop :=
  (∃ x, r = ⟨none, some x⟩ ∧ x.Sendable reg) ∨
  (∃ x names, r = ⟨some ⟨x, names⟩, none⟩ ∧ x.Sendable reg ∧
    (isRecordTypeSupported x = true → ∃ ts, x.recordType = .ok ts ∧ LabelsFields ts names))

/-- A plan that can be carried. -/
def Plan.Sendable (reg : RelReg) (p : Plan) : Prop :=
  (∀ r ∈ p.relations, r.Sendable reg) ∧ ∀ b ∈ p.bindings, b.value.Sendable

/-- What a plan message says about one relation. -/
def PlanRelMsg.says {M : Type} : PlanRelMsg M → Option (M × Option (List String))
  | .rel m => some (m, none)
  | .root m names => some (m, some names)
  | .unset => none

/-- ... what the relation itself says: its tree and, for a root, its names -/
def Relation.says (r : Relation) : Option (Rel × Option (List String)) :=
  match r.root, r.rel with
  | some x, _ => some (x.input, some x.names)
  | none, some x => some (x, none)
  | none, none => none

/-- A message and a relation say the same, given how trees are written. -/
def Relation.Written {M : Type} (enc : Rel → Res M) (r : Relation) (m : PlanRelMsg M) : Prop :=
  ∃ x y names, r.says = some (x, names) ∧ m.says = some (y, names) ∧ enc x = .ok y

end Verif

import Verif.Model.RelBuild
import Verif.Spec.Types
import Mathlib.Data.List.Forall2
/-!
# Vocabulary for relations
-/

namespace Verif

/-- `out` consists of the elements of `src` at the (signed, zero-based) positions `idx`, in that
order; in particular every position lies within `src`. -/
def Picks (src : List α) (idx : List Int32) (out : List α) : Prop :=
  List.Forall₂ (fun i x => 0 ≤ i.toInt ∧ src[i.toInt.toNat]? = some x) idx out

/-- A position within a list of `n` elements. -/
def InBounds (n : Nat) (i : Int32) : Prop := 0 ≤ i.toInt ∧ i.toInt < n

/-- The number of columns fits the `int32` used to count them. -/
def Countable (ts : List Ty) : Prop := ts.length < 2 ^ 31

/-- `t'` is `t` made nullable: it is nullable, and apart from the outermost nullability it is the
same type. -/
def NullableOf (t t' : Ty) : Prop :=
  t'.nullability = NullabilityNullable ∧ (t'.withNullability t.nullability).Same t

/-- Each column of `ts'` is the column of `ts` at the same position made nullable. -/
def NullableCols (ts ts' : List Ty) : Prop := List.Forall₂ NullableOf ts ts'

/-- The output columns of a join of inputs with columns `l` and `r`. -/
def JoinColumns (ty : JoinType) (l r out : List Ty) : Prop :=
  match ty with
  | .inner => out = l ++ r
  | .outer => ∃ l' r', NullableCols l l' ∧ NullableCols r r' ∧ out = l' ++ r'
  | .left | .leftSingle => ∃ r', NullableCols r r' ∧ out = l ++ r'
  | .right | .rightSingle => ∃ l', NullableCols l l' ∧ out = l' ++ r
  | .leftSemi | .leftAnti => out = l
  | .rightSemi | .rightAnti => out = r
  | .unspecified | .other _ => True

/-- Relations without a relation as input. -/
def Rel.IsLeaf : Rel → Prop
  | .read _ _ _ | .extLeaf _ _ => True
  | _ => False

/-- What C35 demands of a builder call: success means that the schema is computable with one column
per mapping entry, and a mapping with an index outside the columns the call would give without a
mapping is rejected. -/
def BuildsWell (call : BuildCall) (m : Option (List Int32)) : Prop :=
  (∀ r, call.run m = .ok r →
    ∃ ts, r.recordType = .ok ts ∧ ∀ is, m = some is → ts.length = is.length) ∧
  (∀ r cols is, call.run none = .ok r → r.recordType = .ok cols → m = some is →
    (∃ i ∈ is, ¬ InBounds cols.length i) → ∀ r', call.run m ≠ .ok r')

/-- The calls for which C35 is proved: every project expression has a type; a filter's input has no
output mapping; a write has no (or an empty) mapping; a create-table-as-select has at least as many
table columns as input columns. -/
def BuildCall.Covered (m : Option (List Int32)) : BuildCall → Prop
  | .project _ es => ∀ e ∈ es, ∃ t, e.getType = .ok t
  | .filter (some i) _ => i.outputMapping = none
  | .write _ _ _ _ => ∀ is, m = some is → is = []
  | .ctas (some i) _ s => ∀ ts, i.recordType = .ok ts → ts.length ≤ s.types.length
  | _ => True

end Verif

import Verif.Model.RelMem
import Verif.Spec.Rel
/-!
# Vocabulary for schemas in memory
-/

namespace Verif

/-- The objects at the addresses `as` are the types `ts`. -/
def RMem.Holds (m : RMem) (as : List Nat) (ts : List Ty) : Prop :=
  List.Forall₂ (fun a t => m.objs[a]? = some t) as ts

/-- Reading the record type (slice) `s` in memory `m` gives the column types `ts`. -/
def RMem.Reads (m : RMem) (s : RSlice) (ts : List Ty) : Prop :=
  ∃ a, m.arrs[s.arr]? = some a ∧ s.len ≤ a.length ∧ m.Holds (a.take s.len) ts

/-- The slice fills its array: no unused capacity. -/
def RMem.Full (m : RMem) (s : RSlice) : Prop := ∃ a, m.arrs[s.arr]? = some a ∧ a.length = s.len

/-- No type object is an interval_day type. -/
def RMem.NoIntervalDay (m : RMem) : Prop := ∀ n v p, Ty.prec .intervalDay n v p ∉ m.objs

/-- The number of columns after a mapping. -/
def mappedWidth (mapping : Option (List Int32)) (n : Nat) : Nat :=
  match mapping with
  | none => n
  | some is => is.length

/-- The number of output columns of a relation. -/
def MRel.width : MRel → Nat
  | .scan mp s => mappedWidth mp s.len
  | .empty mp => mappedWidth mp 0
  | .project mp i ts => mappedWidth mp (i.width + ts.length)
  | .join mp l r ty =>
      mappedWidth mp
        (match ty with
        | .inner | .outer | .left | .leftSingle | .right | .rightSingle => l.width + r.width
        | .leftSemi | .leftAnti => l.width
        | .rightSemi | .rightAnti => r.width
        | .unspecified | .other _ => 0)
  | .concat mp l r => mappedWidth mp (l.width + r.width)
  | .pass mp i => mappedWidth mp i.width
  | .aggregate mp ts => mappedWidth mp ts.length

/-- The memory after computing the schemas of the relations `rs`, one after the other. -/
def schemaCalls (g : Growth) : List MRel → RMem → Res RMem
  | [], m => .ok m
  | r :: rs, m => r.recordType g m >>= fun (_, m) => schemaCalls g rs m

/-- The conditions under which computing the schema is proved to have no side effects: the schemas
of the scans are proper slices without spare capacity, expression types exist, and the right input
of an outer join has at least one column. -/
def MRel.Safe (m : RMem) : MRel → Prop
  | .scan _ s => m.Full s ∧ ∃ ts, m.Reads s ts
  | .empty _ => True
  | .project _ i as => i.Safe m ∧ ∃ ts, m.Holds as ts
  | .join _ l r ty => l.Safe m ∧ r.Safe m ∧ (ty = .outer → 0 < r.width)
  | .concat _ l r => l.Safe m ∧ r.Safe m
  | .pass _ i => i.Safe m
  | .aggregate _ as => ∃ ts, m.Holds as ts

end Verif

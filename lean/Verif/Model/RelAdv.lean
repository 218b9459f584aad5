import Verif.Model.Rel
/-!
# Advanced extensions of relations

Models `GetAdvancedExtension` and `SetAdvancedExtension` of the relations of `plan/relations.go`. A
message of an extension is a number standing for its contents, as in `Verif.Model.Rel`.
-/

namespace Verif

/-- The `GetAdvancedExtension` methods: `plan/relations.go:106` (reads), 636-638 (files), 721-723,
878-880, 970-972, 1041-1043, 1162-1164, 1333-1335, 1423-1425, 1514-1516, 2056-2058, 2173-2175; the
extension relations and the write have the one of `RelCommon`, `plan/common.go:173-175`. -/
def Rel.getAdv : Rel → Option Nat
  | .read _ b k =>
      match k with
      | .files _ adv => adv
      | _ => b.adv
  | .project _ _ _ adv => adv
  | .join _ _ _ _ _ _ adv => adv
  | .cross _ _ _ adv => adv
  | .fetch _ _ _ _ adv => adv
  | .aggregate _ _ _ _ _ adv => adv
  | .sort _ _ _ adv => adv
  | .filter _ _ _ adv => adv
  | .set _ _ _ adv => adv
  | .extSingle c _ _ => c.adv
  | .extLeaf c _ => c.adv
  | .extMulti c _ _ => c.adv
  | .hashJoin _ _ _ _ _ _ adv => adv
  | .mergeJoin _ _ _ _ _ _ adv => adv
  | .write c _ _ _ _ _ _ => c.adv

/-- The receiver after `SetAdvancedExtension`: `plan/relations.go:107-111` (reads), 640-644 (files),
724-728, 881-885, 973-977, 1044-1048, 1165-1169, 1336-1340, 1426-1430, 1517-1521, 2059-2063, 2176-2180,
`plan/common.go:177-181`. -/
def Rel.setAdv (x : Option Nat) : Rel → Rel
  | .read c b k =>
      match k with
      | .files items _ => .read c b (.files items x)
      | k => .read c { b with adv := x } k
  | .project c i es _ => .project c i es x
  | .join c l r e p t _ => .join c l r e p t x
  | .cross c l r _ => .cross c l r x
  | .fetch c i o n _ => .fetch c i o n x
  | .aggregate c i ms es rs _ => .aggregate c i ms es rs x
  | .sort c i ss _ => .sort c i ss x
  | .filter c i e _ => .filter c i e x
  | .set c is op _ => .set c is op x
  | .extSingle c i d => .extSingle { c with adv := x } i d
  | .extLeaf c d => .extLeaf { c with adv := x } d
  | .extMulti c is d => .extMulti { c with adv := x } is d
  | .hashJoin c l r ks p t _ => .hashJoin c l r ks p t x
  | .mergeJoin c l r ks p t _ => .mergeJoin c l r ks p t x
  | .write c ns a s op i m => .write { c with adv := x } ns a s op i m

/-- What `SetAdvancedExtension` returns: `existing`, read before the field is set (same lines). -/
def Rel.setAdvReturns (r : Rel) (_ : Option Nat) : Option Nat := r.getAdv

/-- The relation `r` after `c, err := r.Copy(ins...)` and, if there is no error,
`c.SetAdvancedExtension(x)`: for some relations `c` is `r` (`plan/relations.go:246,305,376,482,675,1729`). -/
def Rel.afterSetOnCopy (r : Rel) (ins : List Rel) (x : Option Nat) : Rel :=
  match r.copy ins with
  | .ok c => if r.copyIsReceiver then c.setAdv x else r
  | _ => r

end Verif

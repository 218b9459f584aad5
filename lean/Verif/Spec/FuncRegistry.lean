import Verif.Spec.Collection
/-!
# Vocabulary for C132
-/

namespace Verif

/-- A collection into which the files were loaded, the last one first; loads that were refused may have come in between. -/
inductive Collection.Holds : Collection → List ExtFile → Prop where
  | zero : Holds .zero []
  | accepted : Holds c fs → c.load (some f) = (c', .ok ()) → Holds c' (f :: fs)
  | refused : Holds c fs → c.load file = (c', r) → r ≠ .ok () → (∀ f, file = some f → f.DefaultsOk) → Holds c' fs

/-- orders in which the maps of functions can be ranged over -/
def Collection.RangedAs (c : Collection) (order : FuncKind → List (ExtId × Variant)) : Prop :=
  ∀ k, (order k).Perm (c.funcs k).entries

end Verif

import Verif.Spec.FuncTypes
import Verif.Spec.TypeText
/-!
# Specification vocabulary for building types from parameters
-/

namespace Verif

mutual
/-- No type variation anywhere in the type. -/
def Ty.NoVariation : Ty → Prop
  | .prim _ _ v => v = 0
  | .fixed _ _ v _ => v = 0
  | .decimal _ v _ _ => v = 0
  | .prec _ _ v _ => v = 0
  | .intervalCompound _ _ v _ => v = 0
  | .intervalYearToMonth _ v => v = 0
  | .enum _ _ v _ _ => v = 0
  | .struct _ v ts => v = 0 ∧ Ty.NoVariationList ts
  | .func _ ps r => Ty.NoVariationList ps ∧ r.NoVariation
  | .list _ v t => v = 0 ∧ t.NoVariation
  | .map _ v k e => v = 0 ∧ k.NoVariation ∧ e.NoVariation
  | .udt _ v _ ps => v = 0 ∧ Ty.NoVariationParams ps
/-- ... in each of them -/
def Ty.NoVariationList : List Ty → Prop
  | [] => True
  | t :: ts => t.NoVariation ∧ Ty.NoVariationList ts
/-- ... in the parameters of a user-defined type -/
def Ty.NoVariationParams : List TParam → Prop
  | [] => True
  | .dataType t :: ps => t.NoVariation ∧ Ty.NoVariationParams ps
  | _ :: ps => Ty.NoVariationParams ps
end

mutual
/-- Simple types, types with integer parameters, lists, maps, and structs of such. -/
def FTy.Buildable : FTy → Prop
  | .prim .. => True
  | .single .. => True
  | .decimal .. => True
  | .list .. => True
  | .map .. => True
  | .struct _ ts => FTy.BuildableList ts
  | _ => False
/-- ... each of them -/
def FTy.BuildableList : List FTy → Prop
  | [] => True
  | t :: ts => t.Buildable ∧ FTy.BuildableList ts
end

end Verif

import Verif.Model.Types
/-!
# What the text of a type tells

Vocabulary for C131, without reference to how texts are made.
-/

namespace Verif

mutual
/-- The type as far as its text tells it: no variations, a type is nullable or it is not, user-defined types are all
alike, and the two Go types for intervals of years (and pointers to compound intervals and the intervals) are one. -/
def Ty.shown : Ty → Ty
  | .prim k n _ => .prim k (if n = NullabilityNullable then NullabilityNullable else NullabilityRequired) 0
  | .fixed k n _ l => .fixed k (if n = NullabilityNullable then NullabilityNullable else NullabilityRequired) 0 l
  | .decimal n _ s p => .decimal (if n = NullabilityNullable then NullabilityNullable else NullabilityRequired) 0 s p
  | .prec k n _ p => .prec k (if n = NullabilityNullable then NullabilityNullable else NullabilityRequired) 0 p
  | .intervalCompound _ n _ p =>
      .intervalCompound false (if n = NullabilityNullable then NullabilityNullable else NullabilityRequired) 0 p
  | .intervalYearToMonth n _ =>
      .prim .intervalYear (if n = NullabilityNullable then NullabilityNullable else NullabilityRequired) 0
  | .enum _ _ _ name _ => .enum false NullabilityRequired 0 name []
  | .struct n _ ts =>
      .struct (if n = NullabilityNullable then NullabilityNullable else NullabilityRequired) 0 (Ty.shownList ts)
  | .func n ps r =>
      .func (if n = NullabilityNullable then NullabilityNullable else NullabilityRequired) (Ty.shownList ps) r.shown
  | .list n _ t => .list (if n = NullabilityNullable then NullabilityNullable else NullabilityRequired) 0 t.shown
  | .map n _ k v => .map (if n = NullabilityNullable then NullabilityNullable else NullabilityRequired) 0 k.shown v.shown
  | .udt _ _ _ _ => .udt NullabilityRequired 0 0 []
def Ty.shownList : List Ty → List Ty
  | [] => []
  | t :: ts => t.shown :: Ty.shownList ts
end

mutual
/-- A type without enumerations in it, whose texts are whatever name they have. -/
def Ty.NoEnums : Ty → Prop
  | .enum .. => False
  | .struct _ _ ts => Ty.NoEnumsList ts
  | .func _ ps r => Ty.NoEnumsList ps ∧ r.NoEnums
  | .list _ _ t => t.NoEnums
  | .map _ _ k v => k.NoEnums ∧ v.NoEnums
  | _ => True
def Ty.NoEnumsList : List Ty → Prop
  | [] => True
  | t :: ts => t.NoEnums ∧ Ty.NoEnumsList ts
end

mutual
/-- A type with nothing that its text does not tell: nullable or required throughout, without variations,
user-defined types, enumerations, year-month intervals of the second Go type and pointers to compound intervals. -/
def Ty.Told : Ty → Prop
  | .prim _ n v => (n = NullabilityNullable ∨ n = NullabilityRequired) ∧ v = 0
  | .fixed _ n v _ => (n = NullabilityNullable ∨ n = NullabilityRequired) ∧ v = 0
  | .decimal n v _ _ => (n = NullabilityNullable ∨ n = NullabilityRequired) ∧ v = 0
  | .prec _ n v _ => (n = NullabilityNullable ∨ n = NullabilityRequired) ∧ v = 0
  | .intervalCompound ptr n v _ => ptr = false ∧ (n = NullabilityNullable ∨ n = NullabilityRequired) ∧ v = 0
  | .intervalYearToMonth .. => False
  | .enum .. => False
  | .struct n v ts => (n = NullabilityNullable ∨ n = NullabilityRequired) ∧ v = 0 ∧ Ty.ToldList ts
  | .func n ps r => (n = NullabilityNullable ∨ n = NullabilityRequired) ∧ Ty.ToldList ps ∧ r.Told
  | .list n v t => (n = NullabilityNullable ∨ n = NullabilityRequired) ∧ v = 0 ∧ t.Told
  | .map n v k e => (n = NullabilityNullable ∨ n = NullabilityRequired) ∧ v = 0 ∧ k.Told ∧ e.Told
  | .udt .. => False
def Ty.ToldList : List Ty → Prop
  | [] => True
  | t :: ts => t.Told ∧ Ty.ToldList ts
end

end Verif

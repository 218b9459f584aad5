import Verif.Model.Variants
/-!
# Specification vocabulary for declared parameter types

When is a concrete type an instance of a declared parameter type? Stated by rules, independently of
the matching functions. `N name ref` says that the type reference `ref` of an argument denotes the
user-defined type called `name`, `I` compares a declared integer type parameter with an actual one,
and `S` says whether nullability has to agree (at every level) as well.
-/

namespace Verif

/-- The declared integer parameter admits the value: it is that constant, or a variable. -/
def IntParam.Admits (p : IntParam) (v : Int32) : Prop :=
  match p with
  | .concrete c => v = c
  | .var _ => True

mutual
/-- `Fits N I S p t`: the concrete type `t` is an instance of the declared type `p`. -/
inductive Fits (N : String → UInt32 → Prop) (I : Int32 → Int64 → Prop) (S : Prop) :
    FTy → Ty → Prop
  /-- any type is an instance of `any`, `any1`, ... -/
  | any (n x t) : (S → t.nullability = n) → Fits N I S (.any n x) t
  /-- a simple type only of itself -/
  | prim (k n v n' v') : (S → n' = n) → Fits N I S (.prim k n v) (.prim k n' v')
  /-- an enum argument of every enum parameter -/
  | enumArg (c n v x os n' v' x' os') : (S → n' = n) →
      Fits N I S (.enum c n v x os) (.enum true n' v' x' os')
  /-- an enum type of the enum parameter with the same name and options -/
  | enum (c n v x os c' n' v') : (S → n' = n) →
      Fits N I S (.enum c n v x os) (.enum c' n' v' x os)
  | fixed (k n p n' v' l) : (S → n' = n) → p.Admits l →
      Fits N I S (.single (.fixed k) n p) (.fixed k n' v' l)
  | prec (k n p n' v' q) : (S → n' = n) → p.Admits q →
      Fits N I S (.single (.prec k) n p) (.prec k n' v' q)
  | decimal (n p s n' v' s' p') : (S → n' = n) → p.Admits p' → s.Admits s' →
      Fits N I S (.decimal n p s) (.decimal n' v' s' p')
  | list (n p n' v' t) : (S → n' = n) → Fits N I S p t → Fits N I S (.list n p) (.list n' v' t)
  | map (n p q n' v' t u) : (S → n' = n) → Fits N I S p t → Fits N I S q u →
      Fits N I S (.map n p q) (.map n' v' t u)
  | struct (n ps n' v' ts) : (S → n' = n) → FitsAll N I S ps ts →
      Fits N I S (.struct n ps) (.struct n' v' ts)
  | func (n ps r n' ts u) : (S → n' = n) → FitsAll N I S ps ts → Fits N I S r u →
      Fits N I S (.func n ps r) (.func n' ts u)
  | udt (n v x ps n' v' ref qs) : (S → n' = n) → N x ref → FitsParams N I S ps qs →
      Fits N I S (.udt n v x ps) (.udt n' v' ref qs)
  | derivation (as p t) : Fits N I S p t → Fits N I S (.derivation as p) t
/-- ... position by position -/
inductive FitsAll (N : String → UInt32 → Prop) (I : Int32 → Int64 → Prop) (S : Prop) :
    List FTy → List Ty → Prop
  | nil : FitsAll N I S [] []
  | cons (p t ps ts) : Fits N I S p t → FitsAll N I S ps ts → FitsAll N I S (p :: ps) (t :: ts)
/-- ... for the parameters of user-defined types -/
inductive FitsParams (N : String → UInt32 → Prop) (I : Int32 → Int64 → Prop) (S : Prop) :
    List FParam → List TParam → Prop
  | nil : FitsParams N I S [] []
  | dataType (p t ps ts) : Fits N I S p t → FitsParams N I S ps ts →
      FitsParams N I S (.dataType p :: ps) (.dataType t :: ts)
  | integer (i j ps ts) : I i j → FitsParams N I S ps ts →
      FitsParams N I S (.integer i :: ps) (.integer j :: ts)
  | string (s ps ts) : FitsParams N I S ps ts →
      FitsParams N I S (.string s :: ps) (.string s :: ts)
end

mutual
/-- No user-defined type anywhere in the declared type. -/
def FTy.NoUdt : FTy → Prop
  | .udt .. => False
  | .list _ t => t.NoUdt
  | .map _ k v => k.NoUdt ∧ v.NoUdt
  | .struct _ ts => FTy.NoUdtList ts
  | .func _ ps r => FTy.NoUdtList ps ∧ r.NoUdt
  | .derivation _ t => t.NoUdt
  | _ => True
/-- ... in each of them -/
def FTy.NoUdtList : List FTy → Prop
  | [] => True
  | t :: ts => t.NoUdt ∧ FTy.NoUdtList ts
end

mutual
/-- No user-defined type, function type or derivation anywhere in the declared type. -/
def FTy.Plain : FTy → Prop
  | .udt .. => False
  | .func .. => False
  | .derivation .. => False
  | .list _ t => t.Plain
  | .map _ k v => k.Plain ∧ v.Plain
  | .struct _ ts => FTy.PlainList ts
  | _ => True
/-- ... in each of them -/
def FTy.PlainList : List FTy → Prop
  | [] => True
  | t :: ts => t.Plain ∧ FTy.PlainList ts
end

end Verif

namespace Verif

/-- The integer type parameter an argument carries is the declared one. -/
def SameInteger (i : Int32) (j : Int64) : Prop := j.toInt = i.toInt

/-- An enum argument of a call (`types.CommonEnumType`). -/
def Ty.IsEnumArg : Ty → Prop
  | .enum true _ _ _ _ => True
  | _ => False

end Verif

import Verif.Spec.Variants
/-!
# Specification vocabulary for return types

The meaning of derivation programs in ordinary integers, and what it means to replace the variables of
a declared type by their values.
-/

namespace Verif

/-- A value of a derivation program. -/
inductive DVal where
  | num (a : Int)
  | flag (b : Bool)

/-- The number is an int64. -/
def InInt64 (a : Int) : Prop := -2 ^ 63 ≤ a ∧ a < 2 ^ 63

/-- Values of the variables visible at some point. -/
abbrev DEnv := String → Option DVal

/-- One more assignment. -/
def DEnv.assign (env : DEnv) (x : String) (v : DVal) : DEnv := fun y => if y = x then some v else env y

/-- `Denotes env e v`: in ordinary arithmetic `e` has the value `v`, no result on the way leaves int64
and no division is by zero. -/
inductive Denotes (env : DEnv) : DExpr → DVal → Prop
  | num (v : Int64) : Denotes env (.num v) (.num v.toInt)
  | name (x v) : env x = some v → Denotes env (.name x) v
  | plus (l r a b) : Denotes env l (.num a) → Denotes env r (.num b) → InInt64 (a + b) →
      Denotes env (.bin .plus l r) (.num (a + b))
  | minus (l r a b) : Denotes env l (.num a) → Denotes env r (.num b) → InInt64 (a - b) →
      Denotes env (.bin .minus l r) (.num (a - b))
  | multiply (l r a b) : Denotes env l (.num a) → Denotes env r (.num b) → InInt64 (a * b) →
      Denotes env (.bin .multiply l r) (.num (a * b))
  /-- the quotient rounded towards zero -/
  | divide (l r a b) : Denotes env l (.num a) → Denotes env r (.num b) → b ≠ 0 →
      InInt64 (a.tdiv b) → Denotes env (.bin .divide l r) (.num (a.tdiv b))
  | lt (l r a b) : Denotes env l (.num a) → Denotes env r (.num b) →
      Denotes env (.bin .lt l r) (.flag (a < b))
  | lte (l r a b) : Denotes env l (.num a) → Denotes env r (.num b) →
      Denotes env (.bin .lte l r) (.flag (a ≤ b))
  | gt (l r a b) : Denotes env l (.num a) → Denotes env r (.num b) →
      Denotes env (.bin .gt l r) (.flag (b < a))
  | gte (l r a b) : Denotes env l (.num a) → Denotes env r (.num b) →
      Denotes env (.bin .gte l r) (.flag (b ≤ a))
  | eq (l r a b) : Denotes env l (.num a) → Denotes env r (.num b) →
      Denotes env (.bin .eq l r) (.flag (a = b))
  | neq (l r a b) : Denotes env l (.num a) → Denotes env r (.num b) →
      Denotes env (.bin .neq l r) (.flag (a ≠ b))
  | and (l r a b) : Denotes env l (.flag a) → Denotes env r (.flag b) →
      Denotes env (.bin .and l r) (.flag (a && b))
  | or (l r a b) : Denotes env l (.flag a) → Denotes env r (.flag b) →
      Denotes env (.bin .or l r) (.flag (a || b))
  | not (e a) : Denotes env e (.flag a) → Denotes env (.not e) (.flag (!a))
  | then (b c t e v) : Denotes env c (.flag true) → Denotes env t v → Denotes env (.ite b c t e) v
  | else (b c t e v) : Denotes env c (.flag false) → Denotes env e v → Denotes env (.ite b c t e) v
  | abs (e a) : Denotes env e (.num a) → InInt64 a.natAbs →
      Denotes env (.call "abs" [e]) (.num a.natAbs)
  | max (l r a b) : Denotes env l (.num a) → Denotes env r (.num b) →
      Denotes env (.call "max" [l, r]) (.num (Max.max a b))
  | min (l r a b) : Denotes env l (.num a) → Denotes env r (.num b) →
      Denotes env (.call "min" [l, r]) (.num (Min.min a b))

/-- `Runs env as env'`: the assignments, one after the other, each seeing those before it. -/
inductive Runs : DEnv → List (String × DExpr) → DEnv → Prop
  | done (env) : Runs env [] env
  | assign (env env' x e v as) : Denotes env e v → Runs (env.assign x v) as env' →
      Runs env ((x, e) :: as) env'

/-- The declared integer parameter stands for the number `c`: the constant, or the value of the
variable. -/
def IntParam.Stands (ρ : String → Int → Prop) : IntParam → Int32 → Prop
  | .concrete c', c => c = c'
  | .var x, c => ρ x c.toInt

mutual
/-- `Instance ρ τ p t`: `t` is the declared type `p` with integer variables replaced by their values
`ρ` and type variables by the types `τ` (made nullable for `any1?`). A declared type knows the names of
user-defined types only, so nothing is said about the reference and the variation of those. -/
inductive Instance (ρ : String → Int → Prop) (τ : String → Ty → Prop) : FTy → Ty → Prop
  | prim (k n v) : Instance ρ τ (.prim k n v) (.prim k n v)
  | enum (c n v x os) : Instance ρ τ (.enum c n v x os) (.enum c n v x os)
  | any (n x t) : τ x t → n ≠ NullabilityNullable → Instance ρ τ (.any n x) t
  | anyNullable (x t) : τ x t →
      Instance ρ τ (.any NullabilityNullable x) (t.withNullability NullabilityNullable)
  | fixed (k n p c) : p.Stands ρ c → Instance ρ τ (.single (.fixed k) n p) (.fixed k n 0 c)
  | prec (k n p c) : p.Stands ρ c → Instance ρ τ (.single (.prec k) n p) (.prec k n 0 c)
  | decimal (n p s a b) : p.Stands ρ a → s.Stands ρ b →
      Instance ρ τ (.decimal n p s) (.decimal n 0 b a)
  | list (n p t) : Instance ρ τ p t → Instance ρ τ (.list n p) (.list n 0 t)
  | map (n p q t u) : Instance ρ τ p t → Instance ρ τ q u → Instance ρ τ (.map n p q) (.map n 0 t u)
  | struct (n ps ts) : Instances ρ τ ps ts → Instance ρ τ (.struct n ps) (.struct n 0 ts)
  | func (n ps r ts u) : Instances ρ τ ps ts → Instance ρ τ r u →
      Instance ρ τ (.func n ps r) (.func n ts u)
  | udt (n v name ps w r ts) : InstanceParams ρ τ ps ts →
      Instance ρ τ (.udt n v name ps) (.udt n w r ts)
/-- ... position by position -/
inductive Instances (ρ : String → Int → Prop) (τ : String → Ty → Prop) : List FTy → List Ty → Prop
  | nil : Instances ρ τ [] []
  | cons (p t ps ts) : Instance ρ τ p t → Instances ρ τ ps ts → Instances ρ τ (p :: ps) (t :: ts)
/-- ... in the parameters of a user-defined type; numbers and texts are as declared -/
inductive InstanceParams (ρ : String → Int → Prop) (τ : String → Ty → Prop) : List FParam → List TParam → Prop
  | nil : InstanceParams ρ τ [] []
  | dataType (p t ps ts) : Instance ρ τ p t → InstanceParams ρ τ ps ts →
      InstanceParams ρ τ (.dataType p :: ps) (.dataType t :: ts)
  | integer (i j ps ts) : j.toInt = i.toInt → InstanceParams ρ τ ps ts →
      InstanceParams ρ τ (.integer i :: ps) (.integer j :: ts)
  | string (s ps ts) : InstanceParams ρ τ ps ts →
      InstanceParams ρ τ (.string s :: ps) (.string s :: ts)
end

/-- The integer variable has this value in the call. -/
def CallInt (params : List FTy) (args : List Ty) (x : String) (c : Int32) : Prop :=
  ∃ (i : Nat) (p : FTy) (t : Ty), params[i]? = some p ∧ args[i]? = some t ∧ IntAt x p t c

/-- The type variable has this type somewhere in the call. -/
def CallType (params : List FTy) (args : List Ty) (x : String) (s : Ty) : Prop :=
  ∃ (i : Nat) (p : FTy) (t : Ty), params[i]? = some p ∧ args[i]? = some t ∧ AnyAt x p t s

mutual
/-- The integer variables that are precision or scale of a decimal in the declared type. -/
def FTy.decimalNames : FTy → List String
  | .decimal _ p s => [p.str, s.str]
  | .list _ t => t.decimalNames
  | .map _ k v => k.decimalNames ++ v.decimalNames
  | .struct _ ts => FTy.decimalNamesList ts
  | .func _ ps r => FTy.decimalNamesList ps ++ r.decimalNames
  | .udt _ _ _ ps => FTy.decimalNamesParams ps
  | _ => []
/-- ... in each of them -/
def FTy.decimalNamesList : List FTy → List String
  | [] => []
  | t :: ts => t.decimalNames ++ FTy.decimalNamesList ts
/-- ... in the parameters of a user-defined type -/
def FTy.decimalNamesParams : List FParam → List String
  | [] => []
  | .dataType t :: ps => t.decimalNames ++ FTy.decimalNamesParams ps
  | .integer _ :: ps => FTy.decimalNamesParams ps
  | .string _ :: ps => FTy.decimalNamesParams ps
end

/-- An integer variable that is the precision of a time type in some parameter. -/
def IsTimePrecision (params : List FTy) (x : String) : Prop :=
  ∃ k n, FTy.single (.prec k) n (.var x) ∈ params

/-- An integer variable that is a length, or precision or scale of a decimal, in some parameter. -/
def IsLength (params : List FTy) (x : String) : Prop :=
  (∃ k n, FTy.single (.fixed k) n (.var x) ∈ params) ∨ (∃ n s, FTy.decimal n (.var x) s ∈ params) ∨
    ∃ n p, FTy.decimal n p (.var x) ∈ params

mutual
/-- No integer variable and no user-defined type anywhere in the declared type. -/
def FTy.NoInts : FTy → Prop
  | .single _ _ p => ∃ c, p = .concrete c
  | .decimal _ p s => (∃ c, p = .concrete c) ∧ ∃ c, s = .concrete c
  | .list _ t => t.NoInts
  | .map _ k v => k.NoInts ∧ v.NoInts
  | .struct _ ts => FTy.NoIntsList ts
  | .func _ ps r => FTy.NoIntsList ps ∧ r.NoInts
  | .udt .. => False
  | .derivation _ t => t.NoInts
  | _ => True
/-- ... in each of them -/
def FTy.NoIntsList : List FTy → Prop
  | [] => True
  | t :: ts => t.NoInts ∧ FTy.NoIntsList ts
end

mutual
/-- No derivation anywhere in the declared type. -/
def FTy.NoDerivation : FTy → Prop
  | .list _ t => t.NoDerivation
  | .map _ k v => k.NoDerivation ∧ v.NoDerivation
  | .struct _ ts => FTy.NoDerivationList ts
  | .func _ ps r => FTy.NoDerivationList ps ∧ r.NoDerivation
  | .udt _ _ _ ps => FTy.NoDerivationParams ps
  | .derivation .. => False
  | _ => True
/-- ... in each of them -/
def FTy.NoDerivationList : List FTy → Prop
  | [] => True
  | t :: ts => t.NoDerivation ∧ FTy.NoDerivationList ts
/-- ... in the parameters of a user-defined type -/
def FTy.NoDerivationParams : List FParam → Prop
  | [] => True
  | .dataType t :: ps => t.NoDerivation ∧ FTy.NoDerivationParams ps
  | .integer _ :: ps => FTy.NoDerivationParams ps
  | .string _ :: ps => FTy.NoDerivationParams ps
end

end Verif

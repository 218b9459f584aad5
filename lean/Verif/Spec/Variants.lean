import Verif.Spec.FuncTypes
import Verif.Spec.Types
/-!
# Specification vocabulary for function calls
-/

namespace Verif

/-- The number of arguments is admissible: exactly the declared parameters, or, for a variadic
function, the parameters but the last and then an allowed number of arguments for the last. -/
def Admissible (nparams : Nat) (variadic : Option Variadic) (nargs : Nat) : Prop :=
  match variadic with
  | none => nargs = nparams
  | some v => 1 ≤ nparams ∧ nparams ≤ nargs + 1 ∧
      v.min ≤ (nargs : Int) - (nparams - 1) ∧
      (v.max = 0 ∨ (nargs : Int) - (nparams - 1) ≤ v.max)

/-- The declared parameter for argument `i`: the `i`-th, or the last for further arguments. -/
def paramFor (params : List α) (i : Nat) : Option α :=
  if i < params.length then params[i]? else params.getLast?

/-- The argument type is compatible with the declared parameter: an instance of the declared type, or,
for an enum parameter, an enum argument (whose type carries no name and no options). -/
def ParamFits (N : String → UInt32 → Prop) (S : Prop) : FuncParam → Ty → Prop
  | .value p, t => Fits N SameInteger S p t
  | .enum .., t => ∃ c n v x os, t = .enum c n v x os ∧ (c = true ∨ x = "" ∧ os = [])
  | .type _, _ => False
  | .missing, _ => False

/-- `AnyAt x p t s`: somewhere in the declared type `p` stands the type variable `x`, and the
argument type `t` has `s` in that place. -/
inductive AnyAt (x : String) : FTy → Ty → Ty → Prop
  | here (n t) : AnyAt x (.any n x) t t
  | list (n n' v' p t s) : AnyAt x p t s → AnyAt x (.list n p) (.list n' v' t) s
  | mapKey (n n' v' p q t u s) : AnyAt x p t s → AnyAt x (.map n p q) (.map n' v' t u) s
  | mapValue (n n' v' p q t u s) : AnyAt x q u s → AnyAt x (.map n p q) (.map n' v' t u) s
  | struct (n n' v' ps ts s) (i : Nat) (p : FTy) (t : Ty) : ps[i]? = some p → ts[i]? = some t →
      AnyAt x p t s → AnyAt x (.struct n ps) (.struct n' v' ts) s
  | funcParam (n n' ps ts r u s) (i : Nat) (p : FTy) (t : Ty) : ps[i]? = some p → ts[i]? = some t →
      AnyAt x p t s → AnyAt x (.func n ps r) (.func n' ts u) s
  | funcReturn (n n' ps ts r u s) : AnyAt x r u s → AnyAt x (.func n ps r) (.func n' ts u) s
  | udt (n v y n' v' ref ps ts s) (i : Nat) (p : FTy) (t : Ty) : ps[i]? = some (FParam.dataType p) →
      ts[i]? = some (TParam.dataType t) → AnyAt x p t s →
      AnyAt x (.udt n v y ps) (.udt n' v' ref ts) s
  | derivation (as p t s) : AnyAt x p t s → AnyAt x (.derivation as p) t s

/-- The same type up to the (outermost) nullability. -/
def Ty.SameBut (t u : Ty) : Prop :=
  (t.withNullability NullabilityUnspecified).Same (u.withNullability NullabilityUnspecified)

/-- The declared type of a parameter. -/
def FuncParam.declared : FuncParam → Option FTy
  | .value t => some t
  | _ => none

mutual
/-- The integer parameters written in a declared type. -/
def FTy.intNames : FTy → List String
  | .single _ _ p => [p.str]
  | .decimal _ p s => [p.str, s.str]
  | .list _ t => t.intNames
  | .map _ k v => k.intNames ++ v.intNames
  | .struct _ ts => FTy.intNamesList ts
  | .func _ ps r => FTy.intNamesList ps ++ r.intNames
  | .derivation _ t => t.intNames
  | _ => []
/-- ... in each of them -/
def FTy.intNamesList : List FTy → List String
  | [] => []
  | t :: ts => t.intNames ++ FTy.intNamesList ts
end

/-- The integer parameters written in a declared parameter. -/
def FuncParam.intNames (p : FuncParam) : List String :=
  match p.declared with
  | some t => t.intNames
  | none => []

/-- An argument a plan can pass: a plan type, or an enum argument. -/
def Ty.Argument (t : Ty) : Prop := t.PlanType ∨ t = .enum true 0 0 "" []

/-- An interval_day type (outermost). -/
def Ty.IsDayInterval : Ty → Prop
  | .prec .intervalDay _ _ _ => True
  | _ => False

/-- The declared type of a parameter, and the argument there, for position `i` of a call. -/
def CallAt (params : List FuncParam) (args : List Ty) (i : Nat) (d : FTy) (t : Ty) : Prop :=
  (∃ p, paramFor params i = some p ∧ p.declared = some d) ∧ args[i]? = some t

/-- All places of a call with one numbered type variable hold the same type, up to nullability. -/
def SameVariables (params : List FuncParam) (args : List Ty) : Prop :=
  ∀ i j d e t u x s r, CallAt params args i d t → CallAt params args j e u →
    AnyAt x d t s → AnyAt x e u r → x ≠ "any" → s.SameBut r

/-- No integer parameter is written in two declared parameters. -/
def NoSharedInts (params : List FuncParam) : Prop :=
  params.Pairwise (fun p q => ∀ x ∈ p.intNames, x ∉ q.intNames)

/-- The arguments for the last parameter all have the same type, up to nullability. -/
def SameVariadic (nparams : Nat) (args : List Ty) : Prop :=
  ∀ (i j : Nat) (t u : Ty), nparams ≤ i + 1 → nparams ≤ j + 1 → args[i]? = some t →
    args[j]? = some u → t.SameBut u

/-- `IntAt x p t v`: somewhere in the declared type `p` stands the integer variable `x`, and the
argument type `t` has the value `v` in that place. -/
inductive IntAt (x : String) : FTy → Ty → Int32 → Prop
  | fixed (k n n' v' l) : IntAt x (.single (.fixed k) n (.var x)) (.fixed k n' v' l) l
  | prec (k n n' v' q) : IntAt x (.single (.prec k) n (.var x)) (.prec k n' v' q) q
  | precision (n s n' v' s' p') : IntAt x (.decimal n (.var x) s) (.decimal n' v' s' p') p'
  | scale (n p n' v' s' p') : IntAt x (.decimal n p (.var x)) (.decimal n' v' s' p') s'
  | list (n n' v' p t c) : IntAt x p t c → IntAt x (.list n p) (.list n' v' t) c
  | mapKey (n n' v' p q t u c) : IntAt x p t c → IntAt x (.map n p q) (.map n' v' t u) c
  | mapValue (n n' v' p q t u c) : IntAt x q u c → IntAt x (.map n p q) (.map n' v' t u) c
  | struct (n n' v' ps ts c) (i : Nat) (p : FTy) (t : Ty) : ps[i]? = some p → ts[i]? = some t →
      IntAt x p t c → IntAt x (.struct n ps) (.struct n' v' ts) c
  | funcParam (n n' ps ts r u c) (i : Nat) (p : FTy) (t : Ty) : ps[i]? = some p → ts[i]? = some t →
      IntAt x p t c → IntAt x (.func n ps r) (.func n' ts u) c
  | funcReturn (n n' ps ts r u c) : IntAt x r u c → IntAt x (.func n ps r) (.func n' ts u) c
  | derivation (as p t c) : IntAt x p t c → IntAt x (.derivation as p) t c

/-- All places of a call with one integer variable hold the same number. -/
def SameIntegers (params : List FuncParam) (args : List Ty) : Prop :=
  ∀ i j d e t u x a b, CallAt params args i d t → CallAt params args j e u →
    IntAt x d t a → IntAt x e u b → a = b

mutual
/-- An integer variable is written somewhere in the declared type. -/
def FTy.Varies : FTy → Prop
  | .single _ _ p => ∃ x, p = .var x
  | .decimal _ p s => (∃ x, p = .var x) ∨ ∃ x, s = .var x
  | .list _ t => t.Varies
  | .map _ k v => k.Varies ∨ v.Varies
  | .struct _ ts => FTy.VariesList ts
  | .func _ ps r => FTy.VariesList ps ∨ r.Varies
  | .derivation _ t => t.Varies
  | _ => False
/-- ... in one of them -/
def FTy.VariesList : List FTy → Prop
  | [] => False
  | t :: ts => t.Varies ∨ FTy.VariesList ts
end

/-- Either every component of the declared type has an integer variable in it, or none has. -/
def FTy.Even : FTy → Prop
  | .map _ k v => k.Varies ↔ v.Varies
  | .struct _ ts => (∀ t ∈ ts, t.Varies) ∨ ∀ t ∈ ts, ¬ t.Varies
  | .func _ ps r => (∀ t ∈ r :: ps, t.Varies) ∨ ∀ t ∈ r :: ps, ¬ t.Varies
  | .derivation _ t => ¬ t.Varies
  | _ => True

/-- No integer variable stands for the precision of a time or interval in one parameter and for a
length or a decimal's precision or scale in another. -/
def OneSort (params : List FuncParam) : Prop :=
  ∀ p ∈ params, ∀ q ∈ params, ∀ k n x, p.declared = some (.single (.prec k) n (.var x)) →
    (∀ k' m, q.declared ≠ some (.single (.fixed k') m (.var x))) ∧
    (∀ m s, q.declared ≠ some (.decimal m (.var x) s)) ∧
    ∀ m s, q.declared ≠ some (.decimal m s (.var x))

/-- The declared type is a single-parameter type or a decimal, i.e. has its integer parameters at
the top. -/
def FTy.IsFlat : FTy → Prop
  | .single .. => True
  | .decimal .. => True
  | _ => False

mutual
/-- No interval_day type anywhere in the type (parameters of user-defined types are not looked at). -/
def Ty.NoDay : Ty → Prop
  | .prec k _ _ _ => k ≠ .intervalDay
  | .list _ _ t => t.NoDay
  | .map _ _ k e => k.NoDay ∧ e.NoDay
  | .struct _ _ ts => Ty.NoDayList ts
  | _ => True
/-- ... in each of them -/
def Ty.NoDayList : List Ty → Prop
  | [] => True
  | t :: ts => t.NoDay ∧ Ty.NoDayList ts
end

end Verif

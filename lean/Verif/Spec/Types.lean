import Verif.Model.Types
/-!
# Specification vocabulary for types

Small predicates used to state the type properties; independent of the functions under test.
-/

namespace Verif

/-- A time precision Substrait allows. -/
def ValidPrecision (p : Int32) : Prop := 0 ≤ p.toInt ∧ p.toInt ≤ 9

mutual
/-- Every time precision occurring anywhere in the type is one of 0..9. -/
def Ty.PrecisionsOk : Ty → Prop
  | .prec _ _ _ p => ValidPrecision p
  | .intervalCompound _ _ _ p => ValidPrecision p
  | .struct _ _ ts => Ty.PrecisionsOkList ts
  | .func _ ps r => Ty.PrecisionsOkList ps ∧ Ty.PrecisionsOk r
  | .list _ _ t => Ty.PrecisionsOk t
  | .map _ _ k e => Ty.PrecisionsOk k ∧ Ty.PrecisionsOk e
  | .udt _ _ _ ps => TParam.PrecisionsOkList ps
  | _ => True
/-- ... for each type of a list -/
def Ty.PrecisionsOkList : List Ty → Prop
  | [] => True
  | t :: ts => Ty.PrecisionsOk t ∧ Ty.PrecisionsOkList ts
/-- ... for a type parameter -/
def TParam.PrecisionsOk : TParam → Prop
  | .dataType t => Ty.PrecisionsOk t
  | _ => True
/-- ... for each type parameter of a list -/
def TParam.PrecisionsOkList : List TParam → Prop
  | [] => True
  | p :: ps => TParam.PrecisionsOk p ∧ TParam.PrecisionsOkList ps
end

mutual
/-- The type is a plan type: no function-argument enum and no missing (nil) type parameter
anywhere. -/
def Ty.PlanType : Ty → Prop
  | .enum .. => False
  | .struct _ _ ts => Ty.PlanTypeList ts
  | .func _ ps r => Ty.PlanTypeList ps ∧ Ty.PlanType r
  | .list _ _ t => Ty.PlanType t
  | .map _ _ k e => Ty.PlanType k ∧ Ty.PlanType e
  | .udt _ _ _ ps => TParam.PlanTypeList ps
  | _ => True
/-- ... for each type of a list -/
def Ty.PlanTypeList : List Ty → Prop
  | [] => True
  | t :: ts => Ty.PlanType t ∧ Ty.PlanTypeList ts
/-- ... for a type parameter -/
def TParam.PlanType : TParam → Prop
  | .nil => False
  | .dataType t => Ty.PlanType t
  | _ => True
/-- ... for each type parameter of a list -/
def TParam.PlanTypeList : List TParam → Prop
  | [] => True
  | p :: ps => TParam.PlanType p ∧ TParam.PlanTypeList ps
end

mutual
/-- Forget whether an interval_compound type is held by value or by pointer (the only
representation detail in `Ty`). Two types are *the same type* when their erasures are
identical trees. -/
def Ty.erase : Ty → Ty
  | .intervalCompound _ n v p => .intervalCompound false n v p
  | .struct n v ts => .struct n v (Ty.eraseList ts)
  | .func n ps r => .func n (Ty.eraseList ps) (Ty.erase r)
  | .list n v t => .list n v (Ty.erase t)
  | .map n v k e => .map n v (Ty.erase k) (Ty.erase e)
  | .udt n v r ps => .udt n v r (TParam.eraseList ps)
  | t => t
/-- ... for each type of a list -/
def Ty.eraseList : List Ty → List Ty
  | [] => []
  | t :: ts => Ty.erase t :: Ty.eraseList ts
/-- ... for a type parameter -/
def TParam.erase : TParam → TParam
  | .dataType t => .dataType (Ty.erase t)
  | p => p
/-- ... for each type parameter of a list -/
def TParam.eraseList : List TParam → List TParam
  | [] => []
  | p :: ps => TParam.erase p :: TParam.eraseList ps
end

/-- The same type, up to value/pointer representation. -/
def Ty.Same (a b : Ty) : Prop := a.erase = b.erase

mutual
/-- No interval_compound message and no unset parameter anywhere in the message. -/
def PTy.NoCompound : PTy → Prop
  | .intervalCompound .. => False
  | .struct _ _ ts => PTy.NoCompoundList ts
  | .func _ ps r => PTy.NoCompoundList ps ∧ PTy.NoCompound r
  | .list _ _ t => PTy.NoCompound t
  | .map _ _ k e => PTy.NoCompound k ∧ PTy.NoCompound e
  | .udt _ _ _ ps => PParam.NoCompoundList ps
  | _ => True
/-- ... for each message of a list -/
def PTy.NoCompoundList : List PTy → Prop
  | [] => True
  | t :: ts => PTy.NoCompound t ∧ PTy.NoCompoundList ts
/-- ... for a parameter message -/
def PParam.NoCompound : PParam → Prop
  | .unset => False
  | .dataType t => PTy.NoCompound t
  | _ => True
/-- ... for each parameter message of a list -/
def PParam.NoCompoundList : List PParam → Prop
  | [] => True
  | p :: ps => PParam.NoCompound p ∧ PParam.NoCompoundList ps
end

mutual
/-- Fill in the documented default precision 6 of interval_day messages without precision;
everything else unchanged. -/
def PTy.normalise : PTy → PTy
  | .intervalDay n v none => .intervalDay n v (some 6)
  | .struct n v ts => .struct n v (PTy.normaliseList ts)
  | .func n ps r => .func n (PTy.normaliseList ps) (PTy.normalise r)
  | .list n v t => .list n v (PTy.normalise t)
  | .map n v k e => .map n v (PTy.normalise k) (PTy.normalise e)
  | .udt n v r ps => .udt n v r (PParam.normaliseList ps)
  | t => t
/-- ... for each message of a list -/
def PTy.normaliseList : List PTy → List PTy
  | [] => []
  | t :: ts => PTy.normalise t :: PTy.normaliseList ts
/-- ... for a parameter message -/
def PParam.normalise : PParam → PParam
  | .dataType t => .dataType (PTy.normalise t)
  | p => p
/-- ... for each parameter message of a list -/
def PParam.normaliseList : List PParam → List PParam
  | [] => []
  | p :: ps => PParam.normalise p :: PParam.normaliseList ps
end

end Verif

namespace Verif

/-- Substrait's name of a type's kind. -/
def Ty.kindName : Ty → String
  | .prim .boolean _ _ => "bool" | .prim .i8 _ _ => "i8" | .prim .i16 _ _ => "i16"
  | .prim .i32 _ _ => "i32" | .prim .i64 _ _ => "i64" | .prim .fp32 _ _ => "fp32"
  | .prim .fp64 _ _ => "fp64" | .prim .string _ _ => "string" | .prim .binary _ _ => "binary"
  | .prim .timestamp _ _ => "timestamp" | .prim .date _ _ => "date" | .prim .time _ _ => "time"
  | .prim .timestampTz _ _ => "timestamp_tz" | .prim .intervalYear _ _ => "interval_year"
  | .prim .uuid _ _ => "uuid"
  | .fixed .fixedChar _ _ _ => "fixed_char" | .fixed .varChar _ _ _ => "varchar"
  | .fixed .fixedBinary _ _ _ => "fixed_binary"
  | .decimal .. => "decimal"
  | .prec .intervalDay _ _ _ => "interval_day" | .prec .precisionTime _ _ _ => "precision_time"
  | .prec .precisionTimestamp _ _ _ => "precision_timestamp"
  | .prec .precisionTimestampTz _ _ _ => "precision_timestamp_tz"
  | .intervalCompound .. => "interval_compound"
  | .intervalYearToMonth .. => "interval_year"
  | .enum .. => "enum"
  | .struct .. => "struct" | .func .. => "func" | .list .. => "list" | .map .. => "map"
  | .udt .. => "user_defined"

/-- The name of the oneof field set in a `substrait.Type` message. -/
def PTy.kindName : PTy → String
  | .unset => ""
  | .prim .bool _ _ => "bool" | .prim .i8 _ _ => "i8" | .prim .i16 _ _ => "i16"
  | .prim .i32 _ _ => "i32" | .prim .i64 _ _ => "i64" | .prim .fp32 _ _ => "fp32"
  | .prim .fp64 _ _ => "fp64" | .prim .string _ _ => "string" | .prim .binary _ _ => "binary"
  | .prim .timestamp _ _ => "timestamp" | .prim .date _ _ => "date" | .prim .time _ _ => "time"
  | .prim .timestampTz _ _ => "timestamp_tz" | .prim .intervalYear _ _ => "interval_year"
  | .prim .uuid _ _ => "uuid"
  | .intervalDay .. => "interval_day" | .intervalCompound .. => "interval_compound"
  | .fixedBinary .. => "fixed_binary" | .fixedChar .. => "fixed_char" | .varchar .. => "varchar"
  | .decimal .. => "decimal" | .precisionTime .. => "precision_time"
  | .precisionTimestamp .. => "precision_timestamp"
  | .precisionTimestampTz .. => "precision_timestamp_tz"
  | .struct .. => "struct" | .func .. => "func" | .list .. => "list" | .map .. => "map"
  | .udt .. => "user_defined"

/-- The scalar fields of a type other than its kind: nullability, variation reference (function
types have none), then length / (scale, precision) / precision / type reference. -/
def Ty.scalars : Ty → List Int
  | .prim _ n v => [n.toInt, v.toNat]
  | .fixed _ n v l => [n.toInt, v.toNat, l.toInt]
  | .decimal n v s p => [n.toInt, v.toNat, s.toInt, p.toInt]
  | .prec _ n v p => [n.toInt, v.toNat, p.toInt]
  | .intervalCompound _ n v p => [n.toInt, v.toNat, p.toInt]
  | .intervalYearToMonth n v => [n.toInt, v.toNat]
  | .enum _ n v _ _ => [n.toInt, v.toNat]
  | .struct n v _ => [n.toInt, v.toNat]
  | .func n _ _ => [n.toInt]
  | .list n v _ => [n.toInt, v.toNat]
  | .map n v _ _ => [n.toInt, v.toNat]
  | .udt n v r _ => [n.toInt, v.toNat, r.toNat]

/-- The scalar fields of the message, in the same order. -/
def PTy.scalars : PTy → List Int
  | .unset => []
  | .prim _ n v => [n.toInt, v.toNat]
  | .intervalDay n v p => [n.toInt, v.toNat, (p.getD 6).toInt]
  | .intervalCompound n v p => [n.toInt, v.toNat, p.toInt]
  | .fixedBinary n v l => [n.toInt, v.toNat, l.toInt]
  | .fixedChar n v l => [n.toInt, v.toNat, l.toInt]
  | .varchar n v l => [n.toInt, v.toNat, l.toInt]
  | .decimal n v s p => [n.toInt, v.toNat, s.toInt, p.toInt]
  | .precisionTime n v p => [n.toInt, v.toNat, p.toInt]
  | .precisionTimestamp n v p => [n.toInt, v.toNat, p.toInt]
  | .precisionTimestampTz n v p => [n.toInt, v.toNat, p.toInt]
  | .struct n v _ => [n.toInt, v.toNat]
  | .func n _ _ => [n.toInt]
  | .list n v _ => [n.toInt, v.toNat]
  | .map n v _ _ => [n.toInt, v.toNat]
  | .udt n v r _ => [n.toInt, v.toNat, r.toNat]

end Verif

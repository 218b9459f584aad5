import Verif.Model.Types
import Verif.Model.GoMap
/-!
# Types in function definitions, and return type derivation

Models the `FuncDefArgType` implementations of `types/` (`any_type.go`, `parameterized_*.go`,
`type_derivation.go`, `EnumType` and `PrimitiveType` of `types.go`) and `types/integer_parameters/`.

Simplifications common to this file: children are never nil interface values; the
`TypeVariationRef` fields of parameterized types, which the parser never sets, are kept only where a
modelled method reads them.
-/

namespace Verif

/-- `IntegerParameter`: `ConcreteIntParam` (`types/integer_parameters/concrete_int_param.go:10`) or
`VariableIntParam` (`types/integer_parameters/variable_int_param.go:8`). -/
inductive IntParam where
  | concrete (v : Int32)
  | var (name : String)
  deriving DecidableEq, Repr

/-- `IsCompatible` with a concrete parameter, `types/integer_parameters/concrete_int_param.go:17-22`,
`types/integer_parameters/variable_int_param.go:15-22` -/
def IntParam.isCompatible : IntParam → Int32 → Bool
  | .concrete c, v => v = c
  | .var _, _ => true

/-- `String`, `types/integer_parameters/concrete_int_param.go:24-26`,
`types/integer_parameters/variable_int_param.go:24-26` -/
def IntParam.str : IntParam → String
  | .concrete c => toString c.toInt
  | .var s => s

/-- the test for `*VariableIntParam`, e.g. `types/parameterized_decimal_type.go:32-33` -/
def IntParam.isVar : IntParam → Bool
  | .concrete _ => false
  | .var _ => true

/-- The instantiations of `parameterizedTypeSingleIntegerParam[T]`, `types/types.go:985-991`. -/
inductive Single where
  | fixed (k : Fixed)
  | prec (k : Prec)
  deriving DecidableEq, Repr

/-- `BinaryOp`, `types/type_derivation.go:27-43` -/
inductive DOp where
  | unknown | and | or | plus | minus | multiply | divide | lt | lte | gt | gte | eq | neq
  deriving DecidableEq, Repr

/-- Derivation expressions: `LiteralNumber`, `BinaryExpr`, `IfExpr`, `NotExpr`, `FunctionCallExpr`
(`types/type_derivation.go:15-17,108-112,157-162,182-184,198-201`) and names
(`StringParameter`, `types/types.go:1557`). -/
inductive DExpr where
  | num (v : Int64)
  | name (s : String)
  | bin (op : DOp) (l r : DExpr)
  | ite (ternary : Bool) (c t e : DExpr)
  | not (e : DExpr)
  | call (f : String) (args : List DExpr)

mutual
/-- A non-nil value of the Go interface `FuncDefArgType` (`types/types.go:509-540`). -/
inductive FTy where
  /-- `PrimitiveType[T]`, `types/types.go:874-877` -/
  | prim (k : Prim) (n : Nullability) (v : UInt32)
  /-- `AnyType`, `types/any_type.go:12-16` -/
  | any (n : Nullability) (name : String)
  /-- `EnumType`, `types/types.go:559-564`; `isCommon` records identity with `CommonEnumType` -/
  | enum (isCommon : Bool) (n : Nullability) (v : UInt32) (name : String) (options : List String)
  /-- `parameterizedTypeSingleIntegerParam[T]`,
  `types/parameterized_single_integer_param_type.go:19-23` -/
  | single (k : Single) (n : Nullability) (p : IntParam)
  /-- `ParameterizedDecimalType`, `types/parameterized_decimal_type.go:13-18` -/
  | decimal (n : Nullability) (precision scale : IntParam)
  /-- `ParameterizedListType`, `types/parameterized_list_type.go:13-17` -/
  | list (n : Nullability) (elem : FTy)
  /-- `ParameterizedMapType`, `types/parameterized_map_type.go:11-16` -/
  | map (n : Nullability) (key value : FTy)
  /-- `ParameterizedStructType`, `types/parameterized_struct_type.go:12-16` -/
  | struct (n : Nullability) (types : List FTy)
  /-- `ParameterizedFuncType`, `types/parameterized_func_type.go:12-16` -/
  | func (n : Nullability) (params : List FTy) (ret : FTy)
  /-- `ParameterizedUserDefinedType`, `types/parameterized_user_defined_type.go:108-113` -/
  | udt (n : Nullability) (v : UInt32) (name : String) (params : List FParam)
  /-- `OutputDerivation`, `types/type_derivation.go:259-262` -/
  | derivation (assignments : List (String × DExpr)) (final : FTy)
/-- `UDTParameter`: `DataTypeUDTParam`, `IntegerUDTParam`, `StringUDTParam`
(`types/parameterized_user_defined_type.go:18,56,82`). -/
inductive FParam where
  | dataType (t : FTy)
  | integer (i : Int32)
  | string (s : String)
end

instance : Inhabited FTy := ⟨.any 0 ""⟩

/-- `GetNullability` methods, `types/any_type.go:45`, `types/types.go:648,891`,
`types/parameterized_single_integer_param_type.go:82`, `types/parameterized_decimal_type.go:63`,
`types/parameterized_list_type.go:59`, `types/parameterized_map_type.go:64`,
`types/parameterized_struct_type.go:91`, `types/parameterized_func_type.go:97`,
`types/parameterized_user_defined_type.go:190`, `types/type_derivation.go:297` -/
def FTy.nullability : FTy → Nullability
  | .prim _ n _ => n
  | .any n _ => n
  | .enum _ n _ _ _ => n
  | .single _ n _ => n
  | .decimal n _ _ => n
  | .list n _ => n
  | .map n _ _ => n
  | .struct n _ => n
  | .func n _ _ => n
  | .udt n _ _ _ => n
  | .derivation _ t => t.nullability

/-! ### Parameters -/

mutual
/-- `HasParameterizedParam` methods, `types/any_type.go:27-30`, `types/types.go:606-608,923-926`,
`types/parameterized_single_integer_param_type.go:48-51`, `types/parameterized_decimal_type.go:31-35`,
`types/parameterized_list_type.go:30-32`, `types/parameterized_map_type.go:29-31`,
`types/parameterized_struct_type.go:36-43`, `types/parameterized_func_type.go:43-51`,
`types/parameterized_user_defined_type.go:135-142`, `types/type_derivation.go:278-280` -/
def FTy.hasParam : FTy → Bool
  | .prim .. => false
  | .any .. => false
  | .enum .. => false
  | .single _ _ p => p.isVar
  | .decimal _ p s => p.isVar || s.isVar
  | .list _ t => t.hasParam
  | .map _ k v => k.hasParam || v.hasParam
  | .struct _ ts => FTy.anyHasParam ts
  | .func _ ps r => FTy.anyHasParam ps || r.hasParam
  | .udt _ _ _ ps => FParam.firstHasParam ps
  | .derivation _ t => t.hasParam
/-- the loops of `types/parameterized_struct_type.go:37-41`, `types/parameterized_func_type.go:44-48` -/
def FTy.anyHasParam : List FTy → Bool
  | [] => false
  | t :: ts => t.hasParam || FTy.anyHasParam ts
/-- the loop of `types/parameterized_user_defined_type.go:136-140`, which answers at the first data
type parameter -/
def FParam.firstHasParam : List FParam → Bool
  | [] => false
  | .dataType t :: _ => t.hasParam
  | _ :: ps => FParam.firstHasParam ps
end

/-- The dynamic types found in the result of `GetParameterizedParams`: an `IntegerParameter`, a
`FuncDefArgType` or a `UDTParameter` (`types/parameterized_decimal_type.go:42-43`,
`types/parameterized_list_type.go:38`, `types/parameterized_user_defined_type.go:151`). -/
inductive AbsParam where
  | int (p : IntParam)
  | ty (t : FTy)
  | udtParam (p : FParam)

/-- the test at `types/parameterized_user_defined_type.go:150` -/
def FParam.hasParam : FParam → Bool
  | .dataType t => t.hasParam
  | _ => false

/-- `GetParameterizedParams` methods, `types/any_type.go:32-35`, `types/types.go:610-612,928-931`,
`types/parameterized_single_integer_param_type.go:53-58`, `types/parameterized_decimal_type.go:37-45`,
`types/parameterized_list_type.go:34-39`, `types/parameterized_map_type.go:33-45`,
`types/parameterized_struct_type.go:45-56`, `types/parameterized_func_type.go:53-69`,
`types/parameterized_user_defined_type.go:144-155`, `types/type_derivation.go:282-284` -/
def FTy.absParams : FTy → List AbsParam
  | .prim .. => []
  | .any .. => []
  | .enum .. => []
  | .single _ _ p => if p.isVar then [.int p] else []
  | .decimal _ p s => if p.isVar || s.isVar then [.int p, .int s] else []
  | .list _ t => if t.hasParam then [.ty t] else []
  | .map _ k v => ([k, v].filter FTy.hasParam).map .ty
  | .struct _ ts => (ts.filter FTy.hasParam).map .ty
  | .func _ ps r => ((ps ++ [r]).filter FTy.hasParam).map .ty
  | .udt _ _ _ ps =>
      if FParam.firstHasParam ps then (ps.filter FParam.hasParam).map .udtParam else []
  | .derivation _ t => t.absParams

/-! ### Matching -/

/-- `MatchWithoutNullability` and `MatchWithNullability` of `IntegerUDTParam` and `StringUDTParam`,
`types/parameterized_user_defined_type.go:70-79,95-104`. The argument is truncated to int32. -/
def FParam.matchLeaf : FParam → TParam → Bool
  | .integer i, .integer j => i = j.toInt32
  | .string s, .string s' => s = s'
  | _, _ => false

/-- `EnumType.MatchWithoutNullability`, `types/types.go:621-640` -/
def enumMatches (name : String) (options : List String) : Ty → Bool
  | .enum isCommon _ _ name' options' => isCommon || (name = name' && options = options')
  | _ => false

/-- `parameterizedTypeSingleIntegerParam.MatchWithoutNullability`,
`types/parameterized_single_integer_param_type.go:67-80` -/
def singleMatches (k : Single) (p : IntParam) : Ty → Bool
  | .fixed k' _ _ l => k = .fixed k' && p.isCompatible l
  | .prec k' _ _ q => k = .prec k' && p.isCompatible q
  | _ => false

mutual
/-- `MatchWithoutNullability` methods, `types/any_type.go:41-43`, `types/types.go:621-640,945-950`,
`types/parameterized_single_integer_param_type.go:67-80`, `types/parameterized_decimal_type.go:54-61`,
`types/parameterized_list_type.go:52-57`, `types/parameterized_map_type.go:57-62`,
`types/parameterized_struct_type.go:76-89`, `types/parameterized_func_type.go:80-95`,
`types/parameterized_user_defined_type.go:175-188`, `types/type_derivation.go:293-295` -/
def FTy.matchLoose : FTy → Ty → Bool
  | .any .., _ => true
  | .prim k _ _, t => match t with | .prim k' _ _ => k = k' | _ => false
  | .enum _ _ _ name options, t => enumMatches name options t
  | .single k _ p, t => singleMatches k p t
  | .decimal _ p s, t =>
      match t with | .decimal _ _ s' p' => p.isCompatible p' && s.isCompatible s' | _ => false
  | .list _ e, t => match t with | .list _ _ e' => e.matchLoose e' | _ => false
  | .map _ k v, t => match t with | .map _ _ k' v' => k.matchLoose k' && v.matchLoose v' | _ => false
  | .struct _ ts, t =>
      match t with
      | .struct _ _ ts' => ts.length = ts'.length && FTy.matchLooseList ts ts'
      | _ => false
  | .func _ ps r, t =>
      match t with
      | .func _ ps' r' => ps.length = ps'.length && FTy.matchLooseList ps ps' && r.matchLoose r'
      | _ => false
  | .udt _ _ _ ps, t =>
      match t with
      | .udt _ _ _ ps' => ps.length = ps'.length && FParam.matchLooseList ps ps'
      | _ => false
  | .derivation _ f, t => f.matchLoose t
/-- the loops of `types/parameterized_struct_type.go:81-85`, `types/parameterized_func_type.go:89-93`;
both lists have equal length when they are reached -/
def FTy.matchLooseList : List FTy → List Ty → Bool
  | p :: ps, t :: ts => p.matchLoose t && FTy.matchLooseList ps ts
  | _, _ => true
/-- the loop of `types/parameterized_user_defined_type.go:180-184` -/
def FParam.matchLooseList : List FParam → List TParam → Bool
  | p :: ps, t :: ts => FParam.matchLoose p t && FParam.matchLooseList ps ts
  | _, _ => true
/-- `MatchWithoutNullability` of `UDTParameter`s,
`types/parameterized_user_defined_type.go:49-54,70-75,95-100` -/
def FParam.matchLoose : FParam → TParam → Bool
  | .dataType p, t => match t with | .dataType t => p.matchLoose t | _ => false
  | .integer i, t => FParam.matchLeaf (.integer i) t
  | .string s, t => FParam.matchLeaf (.string s) t
end

/-- `MatchWithNullability` of `UDTParameter`s,
`types/parameterized_user_defined_type.go:40-47,77-79,102-104` -/
def FParam.matchStrict : FParam → TParam → Bool
  | .dataType p, .dataType t => p.matchLoose t && p.nullability = t.nullability
  | .dataType _, _ => false
  | p, t => FParam.matchLeaf p t

/-- the loop of `types/parameterized_user_defined_type.go:165-169` -/
def FParam.matchStrictList : List FParam → List TParam → Bool
  | p :: ps, t :: ts => FParam.matchStrict p t && FParam.matchStrictList ps ts
  | _, _ => true

mutual
/-- `MatchWithNullability` methods, `types/any_type.go:37-39`, `types/types.go:614-619,938-943`,
`types/parameterized_single_integer_param_type.go:60-65`, `types/parameterized_decimal_type.go:47-52`,
`types/parameterized_list_type.go:41-50`, `types/parameterized_map_type.go:47-55`,
`types/parameterized_struct_type.go:58-74`, `types/parameterized_func_type.go:71-78`,
`types/parameterized_user_defined_type.go:157-173`, `types/type_derivation.go:286-291` -/
def FTy.matchStrict : FTy → Ty → Bool
  | .any n _, t => n = t.nullability
  | .list n e, t =>
      n = t.nullability && (match t with | .list _ _ e' => e.matchStrict e' | _ => false)
  | .map n k v, t =>
      n = t.nullability &&
        (match t with | .map _ _ k' v' => k.matchStrict k' && v.matchStrict v' | _ => false)
  | .struct n ts, t =>
      n = t.nullability &&
        (match t with
          | .struct _ _ ts' => ts.length = ts'.length && FTy.matchStrictList ts ts'
          | _ => false)
  | .udt n _ _ ps, t =>
      n = t.nullability &&
        (match t with
          | .udt _ _ _ ps' => ps.length = ps'.length && FParam.matchStrictList ps ps'
          | _ => false)
  | .prim k n v, t => n = t.nullability && FTy.matchLoose (.prim k n v) t
  | .enum c n v nm os, t => n = t.nullability && FTy.matchLoose (.enum c n v nm os) t
  | .single k n p, t => n = t.nullability && FTy.matchLoose (.single k n p) t
  | .decimal n p s, t => n = t.nullability && FTy.matchLoose (.decimal n p s) t
  | .func n ps r, t => n = t.nullability && FTy.matchLoose (.func n ps r) t
  | .derivation as f, t => f.nullability = t.nullability && FTy.matchLoose (.derivation as f) t
/-- the loop of `types/parameterized_struct_type.go:66-70` -/
def FTy.matchStrictList : List FTy → List Ty → Bool
  | p :: ps, t :: ts => p.matchStrict t && FTy.matchStrictList ps ts
  | _, _ => true
end

/-! ### Derivation -/

/-- Values of the Go type `any` that occur in parameter lists and symbol tables
(`types/type_derivation.go:310-368`): `int64`, `bool`, `TimePrecision`, `Type`, `TypeParam` (nil
included) and the abstract parameters themselves. -/
inductive GVal where
  | int (i : Int64)
  | bool (b : Bool)
  | prec (p : Int32)
  | ty (t : Ty)
  | tparam (p : TParam)
  | abs (p : AbsParam)

/-- `GetParameters` methods, `types/types.go:593-595,886-888,1009-1011,1081-1083,1137-1143,1269-1278,
1358-1360,1420-1422,1616-1622`, `types/precison_timestamp_types.go:94-96,198-200,250-252`,
`types/interval_day_type.go:77-79`, `types/interval_compound_type.go:78-80`,
`types/interval_year_month_type.go:62-64` -/
def Ty.getParameters : Ty → List GVal
  | .prim .. => []
  | .fixed _ _ _ l => [.int (Int64.ofInt l.toInt)]
  | .decimal _ _ s p => [.int (Int64.ofInt p.toInt), .int (Int64.ofInt s.toInt)]
  | .prec _ _ _ p => [.prec p]
  | .intervalCompound _ _ _ p => [.prec p]
  | .intervalYearToMonth .. => []
  | .enum .. => []
  | .struct _ _ ts => ts.map .ty
  | .func _ ps r => (ps ++ [r]).map .ty
  | .list _ _ t => [.ty t]
  | .map _ _ k v => [.ty k, .ty v]
  | .udt _ _ _ ps => ps.map .tparam

/-- the type assertion `x.(int64)`, e.g. `types/type_derivation.go:125` -/
def GVal.asInt : GVal → Res Int64
  | .int i => .ok i
  | _ => .panic

/-- the type assertion `x.(bool)`, e.g. `types/type_derivation.go:145` -/
def GVal.asBool : GVal → Res Bool
  | .bool b => .ok b
  | _ => .panic

/-- the switch of `BinaryExpr.Evaluate`, `types/type_derivation.go:123-150` -/
def DOp.apply (op : DOp) (l r : GVal) : Res GVal :=
  let arith (f : Int64 → Int64 → Int64) : Res GVal :=
    l.asInt >>= fun a => r.asInt >>= fun b => .ok (.int (f a b))
  let comp (f : Int64 → Int64 → Bool) : Res GVal :=
    l.asInt >>= fun a => r.asInt >>= fun b => .ok (.bool (f a b))
  match op with
  | .plus => arith (· + ·)
  | .minus => arith (· - ·)
  | .multiply => arith (· * ·)
  | .divide =>
      l.asInt >>= fun a => r.asInt >>= fun b => if b = 0 then .panic else .ok (.int (a / b))
  | .lt => comp (fun a b => a < b)
  | .lte => comp (fun a b => a ≤ b)
  | .gt => comp (fun a b => a > b)
  | .gte => comp (fun a b => a ≥ b)
  | .eq => comp (fun a b => a = b)
  | .neq => comp (fun a b => a ≠ b)
  | .and => l.asBool >>= fun a => if a then r.asBool >>= fun b => .ok (.bool b) else .ok (.bool false)
  | .or => l.asBool >>= fun a => if a then .ok (.bool true) else r.asBool >>= fun b => .ok (.bool b)
  | .unknown => .panic

/-- the switch of `FunctionCallExpr.Evaluate`, `types/type_derivation.go:226-238` -/
def callFn (f : String) (args : List GVal) : Res GVal :=
  if f = "abs" then
    Res.index args 0 >>= fun x => x.asInt >>= fun a => .ok (.int (if a < 0 then -a else a))
  else if f = "max" then
    Res.index args 0 >>= fun x => x.asInt >>= fun a =>
    Res.index args 1 >>= fun y => y.asInt >>= fun b => .ok (.int (max a b))
  else if f = "min" then
    Res.index args 0 >>= fun x => x.asInt >>= fun a =>
    Res.index args 1 >>= fun y => y.asInt >>= fun b => .ok (.int (min a b))
  else .err

mutual
/-- `Evaluate` methods, `types/type_derivation.go:19-21,114-151,171-180,190-196,217-239`,
`types/types.go:1575-1580` -/
def DExpr.evaluate (st : GoMap String GVal) : DExpr → Res GVal
  | .num v => .ok (.int v)
  | .name s => match st.get s with | some v => .ok v | none => .err
  | .bin op l r => l.evaluate st >>= fun a => r.evaluate st >>= fun b => op.apply a b
  | .ite _ c t e =>
      c.evaluate st >>= fun v => v.asBool >>= fun b => if b then t.evaluate st else e.evaluate st
  | .not e => e.evaluate st >>= fun v => v.asBool >>= fun b => .ok (.bool (!b))
  | .call f args => DExpr.evaluateList st args >>= fun vs => callFn f vs
/-- the argument loop, `types/type_derivation.go:218-225` -/
def DExpr.evaluateList (st : GoMap String GVal) : List DExpr → Res (List GVal)
  | [] => .ok []
  | e :: es => e.evaluate st >>= fun v => DExpr.evaluateList st es >>= fun vs => .ok (v :: vs)
end

/-- the assignments in order, `types/type_derivation.go:246-253,342-347` -/
def assignAll : List (String × DExpr) → GoMap String GVal → Res (GoMap String GVal)
  | [], st => .ok st
  | (x, e) :: as, st => e.evaluate st >>= fun v => assignAll as (st.set x v)

/-- `existingValue != paramValues[j]` on interface values, `types/type_derivation.go:322`.
Simplification: values that are pointers or other than numbers count as different (they cannot occur
once the arguments match the parameters). -/
def GVal.same : GVal → GVal → Bool
  | .int a, .int b => a = b
  | .prec a, .prec b => a = b
  | _, _ => false

/-- the inner loop of `buildTypeParametersNameValueMap`, `types/type_derivation.go:319-328` -/
def bindNames : List AbsParam → List GVal → GoMap String GVal → Res (GoMap String GVal)
  | .int (.var x) :: ps, v :: vs, st =>
      match st.get x with
      | some w => if w.same v then bindNames ps vs (st.set x v) else .err
      | none => bindNames ps vs (st.set x v)
  | _ :: ps, _ :: vs, st => bindNames ps vs st
  | _, _, st => .ok st

/-- `buildTypeParametersNameValueMap`, `types/type_derivation.go:310-332`; indexing `argumentTypes`
panics when there are fewer arguments than parameters -/
def buildNameValueMap : List FTy → List Ty → GoMap String GVal → Res (GoMap String GVal)
  | [], _, st => .ok st
  | p :: ps, args, st =>
      if p.absParams.isEmpty then buildNameValueMap ps args.tail st
      else match args with
        | [] => .panic
        | a :: args =>
            if p.absParams.length ≠ a.getParameters.length then .err
            else bindNames p.absParams a.getParameters st >>= fun st => buildNameValueMap ps args st

/-- the parameters of the final type, `types/type_derivation.go:350-365` -/
def finalParams (st : GoMap String GVal) : List AbsParam → Res (List GVal)
  | [] => .ok []
  | .int (.var x) :: ps =>
      match st.get x with
      | some v => finalParams st ps >>= fun vs => .ok (v :: vs)
      | none => .err
  | .int (.concrete c) :: ps => finalParams st ps >>= fun vs => .ok (.int (Int64.ofInt c.toInt) :: vs)
  | p :: ps => finalParams st ps >>= fun vs => .ok (.abs p :: vs)

/-- `GetReturnType` methods on a new instance, `types/types.go:1060-1065`,
`types/precison_timestamp_types.go:150-155,221-226,307-312`, `types/interval_day_type.go:70-75` -/
def Single.make (k : Single) (v : Int32) (n : Nullability) : Ty :=
  match k with
  | .fixed k => .fixed k n 0 v
  | .prec k => .prec k n 0 v

/-- `WithParameters` of single-parameter types,
`types/parameterized_single_integer_param_type.go:110-127` (no value is an `int32`) -/
def singleWithParameters (k : Single) (n : Nullability) (p : IntParam) : List GVal → Res Ty
  | [.int i] => .ok (k.make i.toInt32 n)
  | [.prec q] => .ok (k.make q n)
  | [_] => .err
  | _ => match p with | .concrete c => .ok (k.make c n) | .var _ => .err

/-- `ParameterizedDecimalType.WithParameters`, `types/parameterized_decimal_type.go:81-97` -/
def decimalWithParameters (n : Nullability) (p s : IntParam) : List GVal → Res Ty
  | [.int a, .int b] => .ok (.decimal n 0 b.toInt32 a.toInt32)
  | [_, _] => .err
  | _ => match p, s with | .concrete a, .concrete b => .ok (.decimal n 0 b a) | _, _ => .err

/-- the type assertion `x.(Type)`, e.g. `types/parameterized_list_type.go:81`; of the parameterized
types only primitive and enum types implement `Type` -/
def GVal.asType : GVal → Option Ty
  | .ty t => some t
  | .abs (.ty (.prim k n v)) => some (.prim k n v)
  | .abs (.ty (.enum c n v nm os)) => some (.enum c n v nm os)
  | _ => none

/-- the loop of `ParameterizedUserDefinedType.WithParameters`,
`types/parameterized_user_defined_type.go:221-227` -/
def typeParams : List GVal → Res (List TParam)
  | [] => .ok []
  | .tparam .nil :: _ => .err
  | .tparam p :: vs => typeParams vs >>= fun ps => .ok (p :: ps)
  | _ :: _ => .err

mutual
/-- `unwrapAnyTypeWithName`, `types/any_type.go:57-120`; `none` is the nil type. An argument whose
parameters are not types panics. Simplification: the `append` at 102 works on a copy. -/
def unwrapAny (name : String) : FTy → Ty → Res (Option Ty)
  | .any _ x, t => if x = name then .ok (some t) else .ok none
  | .list _ e, t =>
      match t.getParameters with
      | [v] => match v with
          | .ty t => unwrapAny name e t
          | .tparam .nil => .err
          | _ => .panic
      | _ => .err
  | .map _ k v, t =>
      match t.getParameters with
      | [a, b] => match a, b with
          | .ty a, b => unwrapAny name k a >>= fun r => match r with
              | some r => .ok (some r)
              | none => match b with
                  | .ty b => unwrapAny name v b
                  | .tparam .nil => .err
                  | _ => .panic
          | .tparam .nil, _ => .err
          | _, .tparam .nil => .err
          | _, _ => .panic
      | _ => .err
  | .struct _ ts, t =>
      if t.getParameters.length ≠ ts.length then .err
      else if t.getParameters.any (fun v => match v with | .tparam .nil => true | _ => false) then .err
      else unwrapAnyList name ts t.getParameters
  | .func _ ps r, t =>
      if t.getParameters.length ≠ ps.length + 1 then .err
      else if t.getParameters.any (fun v => match v with | .tparam .nil => true | _ => false) then .err
      else unwrapAnyList name ps t.getParameters >>= fun x => match x with
        | some x => .ok (some x)
        | none => match t.getParameters.drop ps.length with
            | .ty t :: _ => unwrapAny name r t
            | _ => .panic
  | _, _ => .ok none
/-- the loops of `types/any_type.go:90-98,108-116` -/
def unwrapAnyList (name : String) : List FTy → List GVal → Res (Option Ty)
  | p :: ps, v :: vs => match v with
      | .ty t => unwrapAny name p t >>= fun r => match r with
          | some r => .ok (some r)
          | none => unwrapAnyList name ps vs
      | _ => .panic
  | _, _ => .ok none
end

/-- the search loop of `AnyType.ReturnType`, `types/any_type.go:125-145` -/
def anyReturnType (n : Nullability) (name : String) : List FTy → List Ty → Res Ty
  | p :: ps, t :: ts => unwrapAny name p t >>= fun r => match r with
      | some r => .ok (if n = NullabilityNullable then r.withNullability NullabilityNullable else r)
      | none => anyReturnType n name ps ts
  | _, _ => .err

/-- `OutputDerivation.ReturnType` up to the final `WithParameters`,
`types/type_derivation.go:334-365` -/
def derivedParams (assignments : List (String × DExpr)) (finalParams' : List AbsParam)
    (params : List FTy) (args : List Ty) : Res (List GVal) :=
  buildNameValueMap params args .empty >>= fun st =>
  assignAll assignments st >>= fun st => finalParams st finalParams'

mutual
/-- `ReturnType` methods, `types/any_type.go:122-146`, `types/types.go:652-654,952-954`,
`types/parameterized_single_integer_param_type.go:100-108`,
`types/parameterized_decimal_type.go:71-79`, `types/parameterized_list_type.go:67-75`,
`types/parameterized_map_type.go:72-83`, `types/parameterized_struct_type.go:99-110`,
`types/parameterized_func_type.go:107-130`, `types/parameterized_user_defined_type.go:28-38,66-68,
91-93,198-214` (the type reference stays 0), `types/type_derivation.go:334-368`. Simplification: the
changes that `WithNullability` makes to `interval_day` arguments in place (C04) are not followed. -/
def FTy.returnType (params : List FTy) (args : List Ty) : FTy → Res Ty
  | .prim k n v => .ok (.prim k n v)
  | .any n x => anyReturnType n x params args
  | .enum c n v nm os => .ok (.enum c n v nm os)
  | .single k n p =>
      match p with
      | .concrete c => .ok (k.make c n)
      | .var x => derivedParams [] (FTy.absParams (.single k n (.var x))) params args >>= fun vs =>
          singleWithParameters k n (.var x) vs
  | .decimal n p s =>
      match p, s with
      | .concrete a, .concrete b => .ok (.decimal n 0 b a)
      | p, s => derivedParams [] (FTy.absParams (.decimal n p s)) params args >>= fun vs =>
          decimalWithParameters n p s vs
  | .list n e => e.returnType params args >>= fun e => .ok (.list n 0 e)
  | .map n k v =>
      k.returnType params args >>= fun k => v.returnType params args >>= fun v => .ok (.map n 0 k v)
  | .struct n ts => FTy.returnTypes params args ts >>= fun ts => .ok (.struct n 0 ts)
  | .func n ps r =>
      FTy.returnTypes params args ps >>= fun ps => r.returnType params args >>= fun r =>
      .ok (.func n ps r)
  | .udt n _ _ ps => FParam.toTypeParams params args ps >>= fun ps => .ok (.udt n 0 0 ps)
  | .derivation as f => derivedParams as f.absParams params args >>= fun vs => f.withParameters vs
/-- the loops of `types/parameterized_struct_type.go:101-108`, `types/parameterized_func_type.go:110-116` -/
def FTy.returnTypes (params : List FTy) (args : List Ty) : List FTy → Res (List Ty)
  | [] => .ok []
  | t :: ts =>
      t.returnType params args >>= fun t => FTy.returnTypes params args ts >>= fun ts => .ok (t :: ts)
/-- the loop of `types/parameterized_user_defined_type.go:200-212` -/
def FParam.toTypeParams (params : List FTy) (args : List Ty) : List FParam → Res (List TParam)
  | [] => .ok []
  | .dataType t :: ps =>
      t.returnType params args >>= fun t => FParam.toTypeParams params args ps >>= fun ps =>
      .ok (.dataType t :: ps)
  | .integer i :: ps =>
      FParam.toTypeParams params args ps >>= fun ps => .ok (.integer (Int64.ofInt i.toInt) :: ps)
  | .string s :: ps => FParam.toTypeParams params args ps >>= fun ps => .ok (.string s :: ps)
/-- `WithParameters` methods, `types/any_type.go:148-150`, `types/types.go:656-658,956-958`,
`types/parameterized_single_integer_param_type.go:110-127`,
`types/parameterized_decimal_type.go:81-97`, `types/parameterized_list_type.go:77-85`,
`types/parameterized_map_type.go:85-99`, `types/parameterized_struct_type.go:112-129`,
`types/parameterized_func_type.go:132-154`, `types/parameterized_user_defined_type.go:216-233`,
`types/type_derivation.go:370-372` -/
def FTy.withParameters : FTy → List GVal → Res Ty
  | .prim k n v, _ => .ok (.prim k n v)
  | .any .., _ => .err
  | .enum .., _ => .panic
  | .single k n p, vs => singleWithParameters k n p vs
  | .decimal n p s, vs => decimalWithParameters n p s vs
  | .list n _, vs =>
      match vs with
      | [v] => match v.asType with | some t => .ok (.list n 0 t) | none => .err
      | _ => .err
  | .map n k v, vs =>
      match vs with
      | [a, b] => match a.asType, b.asType with
          | some a, some b => .ok (.map n 0 a b)
          | _, _ => .err
      | _ =>
          if k.hasParam || v.hasParam then .err
          else k.returnType [] [] >>= fun k => v.returnType [] [] >>= fun v => .ok (.map n 0 k v)
  | .struct n ts, vs =>
      if vs.length ≠ ts.length then .err
      else FTy.withParametersEach ts vs >>= fun ts => .ok (.struct n 0 ts)
  | .func n ps r, vs =>
      FTy.withParametersAll ps vs >>= fun ps => r.withParameters vs >>= fun r => .ok (.func n ps r)
  | .udt n v _ ps, vs =>
      if vs.length ≠ ps.length then .err
      else typeParams vs >>= fun ps => .ok (.udt n v 0 ps)
  | .derivation .., _ => .panic
/-- the loop of `types/parameterized_struct_type.go:117-127` -/
def FTy.withParametersEach : List FTy → List GVal → Res (List Ty)
  | t :: ts, v :: vs => match v.asType with
      | none => .err
      | some x => t.withParameters x.getParameters >>= fun t =>
          FTy.withParametersEach ts vs >>= fun ts => .ok (t :: ts)
  | _, _ => .ok []
/-- the loop of `types/parameterized_func_type.go:135-141` -/
def FTy.withParametersAll : List FTy → List GVal → Res (List Ty)
  | [], _ => .ok []
  | t :: ts, vs => t.withParameters vs >>= fun t =>
      FTy.withParametersAll ts vs >>= fun ts => .ok (t :: ts)
end

/-! ### Names -/

/-- `ShortString` of primitive types, `types/types.go:838-853,907-913` -/
def Prim.shortString : Prim → String
  | .boolean => "bool"
  | .i8 => "i8"
  | .i16 => "i16"
  | .i32 => "i32"
  | .i64 => "i64"
  | .fp32 => "fp32"
  | .fp64 => "fp64"
  | .string => "str"
  | .binary => "vbin"
  | .timestamp => "ts"
  | .date => "date"
  | .time => "time"
  | .timestampTz => "tstz"
  | .intervalYear => "iyear"
  | .uuid => "uuid"

/-- `ShortString` of the instances, `types/types.go:112-118,855-857`,
`types/precison_timestamp_types.go:130-132,213-215,286-288`, `types/interval_day_type.go:51` -/
def Single.shortString : Single → String
  | .fixed .fixedChar => "fchar"
  | .fixed .varChar => "vchar"
  | .fixed .fixedBinary => "fbin"
  | .prec .intervalDay => "iday"
  | .prec .precisionTime => "pt"
  | .prec .precisionTimestamp => "pts"
  | .prec .precisionTimestampTz => "ptstz"

/-- `ShortString` methods, `types/any_type.go:49-51`, `types/types.go:642-646,907-913`,
`types/parameterized_single_integer_param_type.go:86-89`, `types/parameterized_decimal_type.go:67-69`,
`types/parameterized_list_type.go:63-65`, `types/parameterized_map_type.go:68-70`,
`types/parameterized_struct_type.go:95-97`, `types/parameterized_func_type.go:101-103`,
`types/parameterized_user_defined_type.go:194-196`, `types/type_derivation.go:301-303` -/
def FTy.shortString : FTy → String
  | .prim k _ _ => k.shortString
  | .any .. => "any"
  | .enum .. => "req"
  | .single k _ _ => k.shortString
  | .decimal .. => "dec"
  | .list .. => "list"
  | .map .. => "map"
  | .struct .. => "struct"
  | .func .. => "func"
  | .udt _ _ name _ => "u!" ++ name
  | .derivation _ f => f.shortString

mutual
/-- `ReferencedUserDefinedTypes` (names; the dependency alias is always nil),
`types/parameterized_user_defined_type.go:247-279` -/
def FTy.userTypes : FTy → List String
  | .udt _ _ name ps => name :: FParam.userTypesList ps
  | .list _ t => t.userTypes
  | .map _ k v => k.userTypes ++ v.userTypes
  | .struct _ ts => FTy.userTypesList ts
  | .func _ ps r => FTy.userTypesList ps ++ r.userTypes
  | .derivation _ f => f.userTypes
  | _ => []
/-- the loops of `types/parameterized_user_defined_type.go:268-270,272-274` -/
def FTy.userTypesList : List FTy → List String
  | [] => []
  | t :: ts => t.userTypes ++ FTy.userTypesList ts
/-- the loop of `types/parameterized_user_defined_type.go:257-261` -/
def FParam.userTypesList : List FParam → List String
  | [] => []
  | .dataType t :: ps => t.userTypes ++ FParam.userTypesList ps
  | _ :: ps => FParam.userTypesList ps
end

end Verif

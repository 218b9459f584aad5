import Verif.Model.Go
/-!
# Substrait types and their protobuf form

Models `types/types.go`, `types/precison_timestamp_types.go`, `types/interval_day_type.go`,
`types/interval_compound_type.go`, `types/interval_year_month_type.go`.

Simplification common to this file: a `Type` interface value that is itself `nil` (a nil child
type inside a container) is not represented; a nil `TypeParam` is, because the reader produces it.
-/

namespace Verif

/-- `types/types.go:21-28`: `type Nullability int32`; any int32 can occur (open enum). -/
abbrev Nullability := Int32
/-- `types/types.go:25` -/
abbrev NullabilityUnspecified : Nullability := 0
/-- `types/types.go:26` -/
abbrev NullabilityNullable : Nullability := 1
/-- `types/types.go:27` -/
abbrev NullabilityRequired : Nullability := 2

/-- `types/types.go:966-981`: the instantiations of the generic `PrimitiveType[T]`. -/
inductive Prim where
  | boolean | i8 | i16 | i32 | i64 | fp32 | fp64 | string | binary
  | timestamp | date | time | timestampTz | intervalYear | uuid
  deriving DecidableEq, Repr

/-- `types/types.go:982-984`: the instantiations of the generic `FixedLenType[T]`. -/
inductive Fixed where
  | fixedChar | varChar | fixedBinary
  deriving DecidableEq, Repr

/-- Types with one time-precision parameter and a pointer receiver:
`types/precison_timestamp_types.go:70-74,158-160,228-232`, `types/interval_day_type.go:10-14`. -/
inductive Prec where
  | intervalDay | precisionTime | precisionTimestamp | precisionTimestampTz
  deriving DecidableEq, Repr

mutual
/-- A non-nil value of the Go interface `types.Type` (`types/types.go:457-471`).
One constructor per family of concrete Go types. -/
inductive Ty where
  /-- `PrimitiveType[T]`, `types/types.go:874-877` -/
  | prim (k : Prim) (n : Nullability) (v : UInt32)
  /-- `FixedLenType[T]`, `types/types.go:996-1000` -/
  | fixed (k : Fixed) (n : Nullability) (v : UInt32) (length : Int32)
  /-- `DecimalType`, `types/types.go:1068-1072` -/
  | decimal (n : Nullability) (v : UInt32) (scale precision : Int32)
  /-- the precision types, see `Prec` -/
  | prec (k : Prec) (n : Nullability) (v : UInt32) (precision : Int32)
  /-- `IntervalCompoundType` (`isPtr = false`) or `*IntervalCompoundType` (`isPtr = true`);
  both implement the interface. `types/interval_compound_type.go:10-14` -/
  | intervalCompound (isPtr : Bool) (n : Nullability) (v : UInt32) (precision : Int32)
  /-- `IntervalYearToMonthType`, `types/interval_year_month_type.go:10-13` -/
  | intervalYearToMonth (n : Nullability) (v : UInt32)
  /-- `*EnumType`, `types/types.go:555-564`; `isCommon` records pointer identity with
  `CommonEnumType` -/
  | enum (isCommon : Bool) (n : Nullability) (v : UInt32) (name : String) (options : List String)
  /-- `StructType`, `types/types.go:1124-1128` -/
  | struct (n : Nullability) (v : UInt32) (types : List Ty)
  /-- `FuncType`, `types/types.go:1255-1259` -/
  | func (n : Nullability) (params : List Ty) (ret : Ty)
  /-- `ListType`, `types/types.go:1344-1349` -/
  | list (n : Nullability) (v : UInt32) (elem : Ty)
  /-- `MapType`, `types/types.go:1407-1411` -/
  | map (n : Nullability) (v : UInt32) (key value : Ty)
  /-- `UserDefinedType`, `types/types.go:1602-1607` -/
  | udt (n : Nullability) (v : UInt32) (ref : UInt32) (params : List TParam)

/-- A value of the Go interface `types.TypeParam` (`types/types.go:1471-1474`), `nil` included. -/
inductive TParam where
  /-- nil interface value, produced by `TypeParamFromProto` (`types/types.go:1599`) -/
  | nil
  /-- `NullParameter`, `types/types.go:1483` -/
  | null
  /-- `*DataTypeParameter`, `types/types.go:1495-1497` -/
  | dataType (t : Ty)
  /-- `BooleanParameter`, `types/types.go:1512` -/
  | boolean (b : Bool)
  /-- `IntegerParameter`, `types/types.go:1527` -/
  | integer (i : Int64)
  /-- `EnumParameter`, `types/types.go:1542` -/
  | enum (s : String)
  /-- `StringParameter`, `types/types.go:1557` -/
  | string (s : String)
end

instance : Inhabited Ty := ⟨.prim .boolean 0 0⟩

/-! ## Protobuf messages -/

/-- `proto.Type` kinds whose message has only nullability and variation
(cases of `types/types.go:227-291,316-325`). -/
inductive PPrim where
  | bool | i8 | i16 | i32 | i64 | fp32 | fp64 | string | binary
  | timestamp | date | time | timestampTz | intervalYear | uuid
  deriving DecidableEq, Repr

mutual
/-- A `*proto.Type` message, by its `Kind` oneof (cases of `types/types.go:226-425`). -/
inductive PTy where
  /-- nil message, unset kind, or a kind the reader does not handle -/
  | unset
  | prim (k : PPrim) (n : Nullability) (v : UInt32)
  | intervalDay (n : Nullability) (v : UInt32) (precision : Option Int32)
  | intervalCompound (n : Nullability) (v : UInt32) (precision : Int32)
  | fixedBinary (n : Nullability) (v : UInt32) (length : Int32)
  | fixedChar (n : Nullability) (v : UInt32) (length : Int32)
  | varchar (n : Nullability) (v : UInt32) (length : Int32)
  | decimal (n : Nullability) (v : UInt32) (scale precision : Int32)
  | precisionTime (n : Nullability) (v : UInt32) (precision : Int32)
  | precisionTimestamp (n : Nullability) (v : UInt32) (precision : Int32)
  | precisionTimestampTz (n : Nullability) (v : UInt32) (precision : Int32)
  | struct (n : Nullability) (v : UInt32) (types : List PTy)
  | func (n : Nullability) (params : List PTy) (ret : PTy)
  | list (n : Nullability) (v : UInt32) (elem : PTy)
  | map (n : Nullability) (v : UInt32) (key value : PTy)
  | udt (n : Nullability) (v : UInt32) (ref : UInt32) (params : List PParam)

/-- A `*proto.Type_Parameter` message by its oneof (`types/types.go:1585-1598`). -/
inductive PParam where
  | unset
  | null
  | dataType (t : PTy)
  | boolean (b : Bool)
  | integer (i : Int64)
  | enum (s : String)
  | string (s : String)
end

/-! ## Reading: `TypeFromProto` -/

/-- `types/precison_timestamp_types.go:62-67` -/
def protoToTimePrecision (val : Int32) : Res Int32 :=
  if val < 0 ∨ val > 9 then .err else .ok val

/-- The simple cases of `TypeFromProto`, `types/types.go:227-291,316-325`. -/
def primFromProto : PPrim → Prim
  | .bool => .boolean
  | .i8 => .i8
  | .i16 => .i16
  | .i32 => .i32
  | .i64 => .i64
  | .fp32 => .fp32
  | .fp64 => .fp64
  | .string => .string
  | .binary => .binary
  | .timestamp => .timestamp
  | .date => .date
  | .time => .time
  | .intervalYear => .intervalYear
  | .timestampTz => .timestampTz
  | .uuid => .uuid

/-- `precision, err := ProtoToTimePrecision(..); if err != nil { panic(..) }`,
`types/types.go:296-299,307-310,352-355,362-365,372-375`. -/
def precisionOrPanic (val : Int32) : Res Int32 :=
  match protoToTimePrecision val with
  | .ok p => .ok p
  | _ => .panic

mutual
/-- `types/types.go:225-427` -/
def typeFromProto : PTy → Res Ty
  | .unset => .panic
  | .prim k n v => .ok (.prim (primFromProto k) n v)
  | .intervalDay n v none => .ok (.prec .intervalDay n v 6)
  | .intervalDay n v (some p) =>
      precisionOrPanic p >>= fun p => .ok (.prec .intervalDay n v p)
  | .intervalCompound n v p =>
      precisionOrPanic p >>= fun p => .ok (.intervalCompound true n v p)
  | .fixedBinary n v l => .ok (.fixed .fixedBinary n v l)
  | .fixedChar n v l => .ok (.fixed .fixedChar n v l)
  | .varchar n v l => .ok (.fixed .varChar n v l)
  | .decimal n v s p => .ok (.decimal n v s p)
  | .precisionTime n v p =>
      precisionOrPanic p >>= fun p => .ok (.prec .precisionTime n v p)
  | .precisionTimestamp n v p =>
      precisionOrPanic p >>= fun p => .ok (.prec .precisionTimestamp n v p)
  | .precisionTimestampTz n v p =>
      precisionOrPanic p >>= fun p => .ok (.prec .precisionTimestampTz n v p)
  | .struct n v ts => typesFromProto ts >>= fun ts => .ok (.struct n v ts)
  | .func n ps r =>
      typesFromProto ps >>= fun ps => typeFromProto r >>= fun r => .ok (.func n ps r)
  | .list n v t => typeFromProto t >>= fun t => .ok (.list n v t)
  | .map n v k e => typeFromProto k >>= fun k => typeFromProto e >>= fun e => .ok (.map n v k e)
  | .udt n v ref ps => paramsFromProto ps >>= fun ps => .ok (.udt n v ref ps)
/-- the field loop, `types/types.go:382-385,392-395` -/
def typesFromProto : List PTy → Res (List Ty)
  | [] => .ok []
  | t :: ts => typeFromProto t >>= fun t => typesFromProto ts >>= fun ts => .ok (t :: ts)
/-- `TypeParamFromProto`, `types/types.go:1584-1600` -/
def paramFromProto : PParam → Res TParam
  | .unset => .ok .nil
  | .null => .ok .null
  | .boolean b => .ok (.boolean b)
  | .dataType t => typeFromProto t >>= fun t => .ok (.dataType t)
  | .integer i => .ok (.integer i)
  | .enum s => .ok (.enum s)
  | .string s => .ok (.string s)
/-- the parameter loop, `types/types.go:415-418` -/
def paramsFromProto : List PParam → Res (List TParam)
  | [] => .ok []
  | p :: ps => paramFromProto p >>= fun p => paramsFromProto ps >>= fun ps => .ok (p :: ps)
end

/-! ## Writing: `TypeToProto` -/

/-- The simple cases of `TypeToProto`, `types/types.go:664-733,748-752`. -/
def primToProto : Prim → PPrim
  | .boolean => .bool
  | .i8 => .i8
  | .i16 => .i16
  | .i32 => .i32
  | .i64 => .i64
  | .fp32 => .fp32
  | .fp64 => .fp64
  | .string => .string
  | .binary => .binary
  | .date => .date
  | .time => .time
  | .timestampTz => .timestampTz
  | .timestamp => .timestamp
  | .intervalYear => .intervalYear
  | .uuid => .uuid

mutual
/-- `types/types.go:662-803` (with the `ToProto` methods of `DecimalType` 1102-1108,
`StructType` 1170-1180, `FuncType` 1305-1317, `ListType` 1380-1385, `MapType` 1442-1448,
`UserDefinedType` 1652-1665). The switch has a case for the value type
`IntervalCompoundType` only, and none for `IntervalYearToMonthType` or `*EnumType`. -/
def typeToProto : Ty → Res PTy
  | .prim k n v => .ok (.prim (primToProto k) n v)
  | .prec .intervalDay n v p => .ok (.intervalDay n v (some p))
  | .intervalCompound false n v p => .ok (.intervalCompound n v p)
  | .intervalCompound true _ _ _ => .panic
  | .fixed .fixedChar n v l => .ok (.fixedChar n v l)
  | .fixed .varChar n v l => .ok (.varchar n v l)
  | .fixed .fixedBinary n v l => .ok (.fixedBinary n v l)
  | .decimal n v s p => .ok (.decimal n v s p)
  | .prec .precisionTime n v p => .ok (.precisionTime n v p)
  | .prec .precisionTimestamp n v p => .ok (.precisionTimestamp n v p)
  | .prec .precisionTimestampTz n v p => .ok (.precisionTimestampTz n v p)
  | .struct n v ts => typesToProto ts >>= fun ts => .ok (.struct n v ts)
  | .func n ps r =>
      typesToProto ps >>= fun ps => typeToProto r >>= fun r => .ok (.func n ps r)
  | .list n v t => typeToProto t >>= fun t => .ok (.list n v t)
  | .map n v k e => typeToProto k >>= fun k => typeToProto e >>= fun e => .ok (.map n v k e)
  | .udt n v ref ps => paramsToProto ps >>= fun ps => .ok (.udt n v ref ps)
  | .intervalYearToMonth _ _ => .panic
  | .enum .. => .panic
/-- the child loop, `types/types.go:1171-1174,1306-1309` -/
def typesToProto : List Ty → Res (List PTy)
  | [] => .ok []
  | t :: ts => typeToProto t >>= fun t => typesToProto ts >>= fun ts => .ok (t :: ts)
/-- `TypeParam.ToProto` methods, `types/types.go:1490-1492,1506-1509,1521-1524,1536-1539,
1551-1554,1570-1573`; a nil interface panics. -/
def paramToProto : TParam → Res PParam
  | .nil => .panic
  | .null => .ok .null
  | .dataType t => typeToProto t >>= fun t => .ok (.dataType t)
  | .boolean b => .ok (.boolean b)
  | .integer i => .ok (.integer i)
  | .enum s => .ok (.enum s)
  | .string s => .ok (.string s)
/-- the parameter loop, `types/types.go:1653-1656` -/
def paramsToProto : List TParam → Res (List PParam)
  | [] => .ok []
  | p :: ps => paramToProto p >>= fun p => paramsToProto ps >>= fun ps => .ok (p :: ps)
end

/-! ## Accessors and `WithNullability` -/

/-- `GetNullability` methods, e.g. `types/types.go:648,891,1014,1086,1146,1281,1363,1425,1625`,
`types/interval_compound_type.go:47`, `types/interval_day_type.go:27`. -/
def Ty.nullability : Ty → Nullability
  | .prim _ n _ => n
  | .fixed _ n _ _ => n
  | .decimal n _ _ _ => n
  | .prec _ n _ _ => n
  | .intervalCompound _ n _ _ => n
  | .intervalYearToMonth n _ => n
  | .enum _ n _ _ _ => n
  | .struct n _ _ => n
  | .func n _ _ => n
  | .list n _ _ => n
  | .map n _ _ _ => n
  | .udt n _ _ _ => n

/-- `GetTypeVariationReference` methods, e.g. `types/types.go:579,892,1015,1087,1147,1282,1364,
1426,1626`; `FuncType` always answers 0. -/
def Ty.variation : Ty → UInt32
  | .prim _ _ v => v
  | .fixed _ _ v _ => v
  | .decimal _ v _ _ => v
  | .prec _ _ v _ => v
  | .intervalCompound _ _ v _ => v
  | .intervalYearToMonth _ v => v
  | .enum _ _ v _ _ => v
  | .struct _ v _ => v
  | .func _ _ _ => 0
  | .list _ v _ => v
  | .map _ v _ _ => v
  | .udt _ v _ _ => v

/-- The *returned* value of `WithNullability`: `types/types.go:587-591,880-884,1003-1007,1075-1079,
1131-1135,1263-1267,1352-1356,1414-1418,1610-1614`, `types/precison_timestamp_types.go:98-104,
192-196,254-260`, `types/interval_day_type.go:21-24`, `types/interval_compound_type.go:31-37`
(always the value type, also for a pointer receiver), `types/interval_year_month_type.go:29-32`.
A copy of `CommonEnumType` is a fresh pointer, hence `isCommon = false`. The effect on the
receiver is modelled separately in `withNullabilityAt`. -/
def Ty.withNullability (t : Ty) (n : Nullability) : Ty :=
  match t with
  | .prim k _ v => .prim k n v
  | .fixed k _ v l => .fixed k n v l
  | .decimal _ v s p => .decimal n v s p
  | .prec k _ v p => .prec k n v p
  | .intervalCompound _ _ v p => .intervalCompound false n v p
  | .intervalYearToMonth _ v => .intervalYearToMonth n v
  | .enum _ _ v nm os => .enum false n v nm os
  | .struct _ v ts => .struct n v ts
  | .func _ ps r => .func n ps r
  | .list _ v t => .list n v t
  | .map _ v k e => .map n v k e
  | .udt _ v r ps => .udt n v r ps

/-! ## `Equals` -/

mutual
/-- The `Equals` methods: `types/types.go:583-585,621-640` (enum), `893-899` (primitive),
`1016-1022` (fixed length), `1088-1094` (decimal), `1149-1168` (struct), `1284-1303` (func),
`1366-1378` (list), `1428-1440` (map), `1628-1650` (user defined),
`types/precison_timestamp_types.go:109-114,202-207,265-270`, `types/interval_day_type.go:29-34`,
`types/interval_compound_type.go:49-57` (value and pointer interchangeable),
`types/interval_year_month_type.go:37-42`. In each the receiver's concrete type decides and a
different concrete type answers false. Panics only through nil type parameters. -/
def Ty.equals : Ty → Ty → Res Bool
  | .prim k n v, .prim k' n' v' => .ok (k = k' && n = n' && v = v')
  | .fixed k n v l, .fixed k' n' v' l' => .ok (k = k' && n = n' && v = v' && l = l')
  | .decimal n v s p, .decimal n' v' s' p' => .ok (n = n' && v = v' && s = s' && p = p')
  | .prec k n v p, .prec k' n' v' p' => .ok (k = k' && n = n' && v = v' && p = p')
  | .intervalCompound _ n v p, .intervalCompound _ n' v' p' =>
      .ok (n = n' && v = v' && p = p')
  | .intervalYearToMonth n v, .intervalYearToMonth n' v' => .ok (n = n' && v = v')
  | .enum _ n _ nm os, .enum c' n' _ nm' os' =>
      .ok (n = n' && (c' || (nm = nm' && os = os')))
  | .struct n v ts, .struct n' v' ts' =>
      if n ≠ n' then .ok false
      else if v ≠ v' then .ok false
      else if ts.length ≠ ts'.length then .ok false
      else Ty.equalsList ts ts'
  | .func n ps r, .func n' ps' r' =>
      if n ≠ n' then .ok false
      else if ps.length ≠ ps'.length then .ok false
      else Ty.equals r r' >>= fun b => if !b then .ok false else Ty.equalsList ps ps'
  | .list n v t, .list n' v' t' =>
      if n ≠ n' then .ok false
      else if v ≠ v' then .ok false
      else Ty.equals t t'
  | .map n v k e, .map n' v' k' e' =>
      if n ≠ n' then .ok false
      else if v ≠ v' then .ok false
      else Ty.equals k k' >>= fun b => if b then Ty.equals e e' else .ok false
  | .udt n v r ps, .udt n' v' r' ps' =>
      if n ≠ n' then .ok false
      else if v ≠ v' then .ok false
      else if r ≠ r' then .ok false
      else if ps.length ≠ ps'.length then .ok false
      else TParam.equalsList ps ps'
  | _, _ => .ok false
/-- the element loop, `types/types.go:1160-1165,1295-1300`; both lists have equal length when it is
reached -/
def Ty.equalsList : List Ty → List Ty → Res Bool
  | t :: ts, t' :: ts' => Ty.equals t t' >>= fun b => if b then Ty.equalsList ts ts' else .ok false
  | _, _ => .ok true
/-- the `TypeParam.Equals` methods, `types/types.go:1485-1488,1499-1504,1514-1519,1529-1534,
1544-1549,1563-1568`; a nil receiver panics -/
def TParam.equals : TParam → TParam → Res Bool
  | .nil, _ => .panic
  | .null, .null => .ok true
  | .dataType t, .dataType t' => Ty.equals t t'
  | .boolean b, .boolean b' => .ok (b = b')
  | .integer i, .integer i' => .ok (i = i')
  | .enum s, .enum s' => .ok (s = s')
  | .string s, .string s' => .ok (s = s')
  | _, _ => .ok false
/-- the parameter loop, `types/types.go:1641-1646` -/
def TParam.equalsList : List TParam → List TParam → Res Bool
  | p :: ps, p' :: ps' =>
      TParam.equals p p' >>= fun b => if b then TParam.equalsList ps ps' else .ok false
  | _, _ => .ok true
end

end Verif

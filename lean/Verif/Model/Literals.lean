import Verif.Model.Types
/-!
# Literals and their protobuf form

Models `expr/literals.go`, `expr/interval_compound_literal.go`, `expr/interval_year_to_month.go`
and the list/map constructors of `literal/utils.go`.

Simplifications common to this file: byte slices and strings are lists of bytes (a nil and an
empty slice are the same list); `float32`/`float64` values are their IEEE bit patterns; a message
that is the payload of a set `oneof` is never nil (the protobuf runtime does not produce that),
but a nil `*proto.Expression_Literal` is represented; the `Type` interface inside a literal is
non-nil.
-/

namespace Verif

/-- The value of a `PrimitiveLiteral[T]`, by the instantiation `T`; cases of
`expr/literals.go:185-214`. -/
inductive PVal where
  | bool (b : Bool)
  | int8 (i : Int8)
  | int16 (i : Int16)
  | int32 (i : Int32)
  | int64 (i : Int64)
  | float32 (bits : UInt32)
  | float64 (bits : UInt64)
  | string (s : List UInt8)
  | timestamp (i : Int64)
  | date (i : Int32)
  | time (i : Int64)
  | fixedChar (s : List UInt8)
  | timestampTz (i : Int64)
  /-- any other `T` allowed by the constraint `expr/literals.go:26-28` -/
  | other
  deriving DecidableEq, Repr

/-- The instantiations of `ByteSliceLiteral[T]` handled by `expr/literals.go:450-457`. -/
inductive BKind where
  | binary | fixedBinary | uuid
  deriving DecidableEq, Repr

/-- The `precision_mode` oneof of `IntervalDayToSecond` (`expr/literals.go:1088-1095`,
`expr/interval_compound_literal.go:116-149`). -/
inductive PrecMode where
  | unset
  | microseconds (m : Int32)
  | precision (p : Int32)
  deriving DecidableEq, Repr

/-- `proto.Expression_Literal_IntervalDayToSecond` -/
structure DaySecond where
  days : Int32
  seconds : Int32
  mode : PrecMode
  subseconds : Int64
  deriving DecidableEq, Repr

mutual
/-- A `*proto.Expression_Literal` (fields `Nullable`, `TypeVariationReference`, `LiteralType`). -/
inductive PLit where
  | nil
  | mk (nullable : Bool) (variation : UInt32) (kind : PLitKind)
/-- The `LiteralType` oneof; the cases of `expr/literals.go:1005-1265`. -/
inductive PLitKind where
  /-- nil oneof or a case the reader does not know -/
  | unset
  | boolean (b : Bool)
  | i8 (i : Int32)
  | i16 (i : Int32)
  | i32 (i : Int32)
  | i64 (i : Int64)
  | fp32 (bits : UInt32)
  | fp64 (bits : UInt64)
  | string (s : List UInt8)
  | binary (b : List UInt8)
  | timestamp (i : Int64)
  | date (i : Int32)
  | time (i : Int64)
  | intervalDayToSecond (d : DaySecond)
  | fixedChar (s : List UInt8)
  | varChar (s : List UInt8) (length : UInt32)
  | fixedBinary (b : List UInt8)
  | decimal (b : List UInt8) (precision scale : Int32)
  | timestampTz (i : Int64)
  | uuid (b : List UInt8)
  | null (t : PTy)
  | struct (fields : List PLit)
  | map (kvs : List PKeyValue)
  | list (values : List PLit)
  /-- `EmptyList *proto.Type_List`; `none` is a nil message -/
  | emptyList (t : Option (Nullability × UInt32 × PTy))
  /-- `EmptyMap *proto.Type_Map`; `none` is a nil message -/
  | emptyMap (t : Option (Nullability × UInt32 × PTy × PTy))
  | userDefined (ref : UInt32) (params : List PParam) (val : PUdtVal)
  | precisionTime (precision : Int32) (value : Int64)
  | precisionTimestamp (precision : Int32) (value : Int64)
  | precisionTimestampTz (precision : Int32) (value : Int64)
  | intervalYearToMonth (years months : Int32)
  /-- the two optional parts of `IntervalCompound` -/
  | intervalCompound (ym : Option (Int32 × Int32)) (ds : Option DaySecond)
/-- `proto.Expression_Literal_Map_KeyValue` -/
inductive PKeyValue where
  | mk (key value : PLit)
/-- The `Val` oneof of `Expression_Literal_UserDefined` (`expr/literals.go:612-620`). -/
inductive PUdtVal where
  | unset
  /-- an `Any` message: type URL and bytes -/
  | value (url : String) (bytes : List UInt8)
  | struct (fields : List PLit)
end

/-- The dynamic value of `ProtoLiteral.Value` (type `any`, `expr/literals.go:504-507`). -/
inductive ProtoVal where
  | intervalYearToMonth (years months : Int32)
  | intervalDayToSecond (d : DaySecond)
  | string (s : List UInt8)
  | bytes (b : List UInt8)
  | int64 (i : Int64)
  | udt (v : PUdtVal)
  /-- any other dynamic type -/
  | other

mutual
/-- A value of the Go interface `expr.Literal` (`expr/literals.go:80-98`), nil included. -/
inductive Lit where
  | nil
  /-- `*NullLiteral`, `expr/literals.go:100-102` -/
  | null (t : Ty)
  /-- `*PrimitiveLiteral[T]`, `expr/literals.go:153-156` -/
  | prim (v : PVal) (t : Ty)
  /-- `*ByteSliceLiteral[T]`, `expr/literals.go:419-422` -/
  | bytes (k : BKind) (b : List UInt8) (t : Ty)
  /-- `*NestedLiteral[StructLiteralValue]`, `expr/literals.go:256-259` -/
  | struct (fields : List Lit) (t : Ty)
  /-- `*NestedLiteral[ListLiteralValue]`, `expr/literals.go:256-259` -/
  | list (values : List Lit) (t : Ty)
  /-- `*MapLiteral`, `expr/literals.go:351-354` -/
  | map (kvs : List KeyValue) (t : Ty)
  /-- `*ProtoLiteral`, `expr/literals.go:504-507` -/
  | proto (v : ProtoVal) (t : Ty)
  /-- `IntervalYearToMonthLiteral`, `expr/interval_year_to_month.go:11-15` -/
  | intervalYearToMonth (years months : Int32) (n : Nullability)
  /-- `IntervalCompoundLiteral`, `expr/interval_compound_literal.go:12-20` -/
  | intervalCompound (years months days seconds : Int32) (subSeconds : Int64)
      (precision : Int32) (n : Nullability)
/-- one entry of `MapLiteralValue`, `expr/literals.go:48-51` -/
inductive KeyValue where
  | mk (key value : Lit)
end

/-- `GetType` methods: `expr/literals.go:118,178,277,363,441,588`,
`expr/interval_year_to_month.go:17-19`, `expr/interval_compound_literal.go:22-24`
(`WithPrecision`, `types/interval_compound_type.go:39-44`, resets the variation). A nil literal
panics. -/
def Lit.getType : Lit → Res Ty
  | .nil => .panic
  | .null t => .ok t
  | .prim _ t => .ok t
  | .bytes _ _ t => .ok t
  | .struct _ t => .ok t
  | .list _ t => .ok t
  | .map _ t => .ok t
  | .proto _ t => .ok t
  | .intervalYearToMonth _ _ n => .ok (.intervalYearToMonth n 0)
  | .intervalCompound _ _ _ _ _ p n => .ok (.intervalCompound false n 0 p)

/-! ## Writing: `ToProtoLiteral` -/

/-- `Nullable: t.GetNullability() == types.NullabilityNullable` and the variation reference,
`expr/literals.go:180-183` (the same in every method but that of `NullLiteral`). -/
def litHeader (t : Ty) (k : PLitKind) : PLit :=
  .mk (t.nullability == NullabilityNullable) t.variation k

/-- The switch of `PrimitiveLiteral.ToProtoLiteral`, `expr/literals.go:185-214`. -/
def primLitKind : PVal → Res PLitKind
  | .bool v => .ok (.boolean v)
  | .int8 v => .ok (.i8 v.toInt32)
  | .int16 v => .ok (.i16 v.toInt32)
  | .int32 v => .ok (.i32 v)
  | .int64 v => .ok (.i64 v)
  | .float32 v => .ok (.fp32 v)
  | .float64 v => .ok (.fp64 v)
  | .string v => .ok (.string v)
  | .timestamp v => .ok (.timestamp v)
  | .date v => .ok (.date v)
  | .time v => .ok (.time v)
  | .fixedChar v => .ok (.fixedChar v)
  | .timestampTz v => .ok (.timestampTz v)
  | .other => .panic

/-- The switch of `ByteSliceLiteral.ToProtoLiteral`, `expr/literals.go:448-455`. -/
def bytesLitKind (k : BKind) (b : List UInt8) : PLitKind :=
  match k with
  | .binary => .binary b
  | .fixedBinary => .fixedBinary b
  | .uuid => .uuid b

/-- The switch of `ProtoLiteral.ToProtoLiteral`, `expr/literals.go:598-673`: the literal's *type*
selects the message, the value is type-asserted. A type without a case leaves `LiteralType` nil. -/
def protoLitKind (t : Ty) (v : ProtoVal) : Res PLitKind :=
  match t with
  | .udt _ _ ref params =>
      paramsToProto params >>= fun ps =>
      match v with
      | .udt (.value url b) => .ok (.userDefined ref ps (.value url b))
      | .udt (.struct fs) => .ok (.userDefined ref ps (.struct fs))
      | _ => .panic
  | .prim .intervalYear _ _ =>
      match v with
      | .intervalYearToMonth y m => .ok (.intervalYearToMonth y m)
      | _ => .panic
  | .prec .intervalDay _ _ _ =>
      match v with
      | .intervalDayToSecond d => .ok (.intervalDayToSecond d)
      | _ => .panic
  | .fixed .varChar _ _ len =>
      match v with
      | .string s => .ok (.varChar s len.toUInt32)
      | _ => .panic
  | .decimal _ _ scale precision =>
      match v with
      | .bytes b => .ok (.decimal b precision scale)
      | _ => .panic
  | .prec .precisionTime _ _ p =>
      match v with
      | .int64 i => .ok (.precisionTime p i)
      | _ => .panic
  | .prec .precisionTimestamp _ _ p =>
      match v with
      | .int64 i => .ok (.precisionTimestamp p i)
      | _ => .panic
  | .prec .precisionTimestampTz _ _ p =>
      match v with
      | .int64 i => .ok (.precisionTimestampTz p i)
      | _ => .panic
  | _ => .ok .unset

/-- `types.TypeToProto(t).GetList()`, `expr/literals.go:303`: nil when the message is not a list -/
def PTy.getList : PTy → Option (Nullability × UInt32 × PTy)
  | .list n v e => some (n, v, e)
  | _ => none

/-- `types.TypeToProto(t).GetMap()`, `expr/literals.go:372` -/
def PTy.getMap : PTy → Option (Nullability × UInt32 × PTy × PTy)
  | .map n v k e => some (n, v, k, e)
  | _ => none

/-- The body of `IntervalCompoundLiteral.ToProtoLiteral`,
`expr/interval_compound_literal.go:26-53`: a part whose numbers are all zero is omitted. -/
def compoundLitKind (years months days seconds : Int32) (subSeconds : Int64)
    (precision : Int32) : PLitKind :=
  .intervalCompound
    (if years ≠ 0 ∨ months ≠ 0 then some (years, months) else none)
    (if days ≠ 0 ∨ seconds ≠ 0 ∨ subSeconds ≠ 0 then
      some ⟨days, seconds, .precision precision, subSeconds⟩ else none)

mutual
/-- The `ToProtoLiteral` methods: `NullLiteral` `expr/literals.go:119-125`, `PrimitiveLiteral`
179-217, `NestedLiteral` 278-315, `MapLiteral` 364-391, `ByteSliceLiteral` 442-458,
`ProtoLiteral` 592-675, `expr/interval_year_to_month.go:21-33`,
`expr/interval_compound_literal.go:26-53`. -/
def literalToProto : Lit → Res PLit
  | .nil => .panic
  | .null t => typeToProto t >>= fun m => .ok (.mk true t.variation (.null m))
  | .prim v t => primLitKind v >>= fun k => .ok (litHeader t k)
  | .bytes k b t => .ok (litHeader t (bytesLitKind k b))
  | .struct fs t => literalsToProto fs >>= fun ms => .ok (litHeader t (.struct ms))
  | .list vs t =>
      literalsToProto vs >>= fun ms =>
      match ms with
      | [] => typeToProto t >>= fun m => .ok (litHeader t (.emptyList m.getList))
      | _ :: _ => .ok (litHeader t (.list ms))
  | .map kvs t =>
      match kvs with
      | [] => typeToProto t >>= fun m => .ok (litHeader t (.emptyMap m.getMap))
      | _ :: _ => keyValuesToProto kvs >>= fun ms => .ok (litHeader t (.map ms))
  | .proto v t => protoLitKind t v >>= fun k => .ok (litHeader t k)
  | .intervalYearToMonth y m n =>
      .ok (litHeader (.intervalYearToMonth n 0) (.intervalYearToMonth y m))
  | .intervalCompound y m d s ss p n =>
      .ok (litHeader (.intervalCompound false n 0 p) (compoundLitKind y m d s ss p))
/-- the element loop, `expr/literals.go:284-287` -/
def literalsToProto : List Lit → Res (List PLit)
  | [] => .ok []
  | l :: ls => literalToProto l >>= fun m => literalsToProto ls >>= fun ms => .ok (m :: ms)
/-- the entry loop, `expr/literals.go:375-381` -/
def keyValuesToProto : List KeyValue → Res (List PKeyValue)
  | [] => .ok []
  | .mk k v :: kvs =>
      literalToProto k >>= fun mk => literalToProto v >>= fun mv =>
      keyValuesToProto kvs >>= fun ms => .ok (.mk mk mv :: ms)
end

/-! ## Reading: `LiteralFromProto` -/

/-- `expr/literals.go:774-779` -/
def getNullability (nullable : Bool) : Nullability :=
  if nullable then NullabilityNullable else NullabilityRequired

/-- `int32(len(s))` of a byte slice or string, `expr/literals.go:1109,1129` -/
def int32Len (s : List UInt8) : Int32 := Int32.ofNat s.length

/-- `expr/literals.go:1086-1103`: no precision mode, or the deprecated microseconds, mean
precision 6; a bad precision gives a nil literal. -/
def intervalDayFromProto (n : Nullability) (v : UInt32) (d : DaySecond) : Lit :=
  match d.mode with
  | .precision p =>
      match protoToTimePrecision p with
      | .ok p => .proto (.intervalDayToSecond d) (.prec .intervalDay n v p)
      | _ => .nil
  | _ => .proto (.intervalDayToSecond d) (.prec .intervalDay n v 6)

/-- `expr/literals.go:1227-1260` with `NewPrecisionTimeLiteral` etc. (1270-1302): bad precision or
negative value gives nil; the variation reference is not passed on. -/
def precisionFromProto (k : Prec) (n : Nullability) (p : Int32) (value : Int64) : Lit :=
  match protoToTimePrecision p with
  | .ok p => if value < 0 then .nil else .proto (.int64 value) (.prec k n 0 p)
  | _ => .nil

/-- `validateIntervalDayToSecondProto` and `intervalCompoundPrecisionSubSecondsFromProto`,
`expr/interval_compound_literal.go:116-149`: precision and sub-seconds, or an error. -/
def compoundDayPart (d : DaySecond) : Res (Int32 × Int64) :=
  match d.mode with
  | .unset => .err
  | .microseconds us =>
      if d.subseconds > 0 then .err
      else protoToTimePrecision 6 >>= fun p => .ok (p, us.toInt64)
  | .precision p => protoToTimePrecision p >>= fun p => .ok (p, d.subseconds)

/-- `intervalCompoundLiteralFromProto`, `expr/interval_compound_literal.go:61-87` -/
def intervalCompoundFromProto (n : Nullability) (ym : Option (Int32 × Int32))
    (ds : Option DaySecond) : Lit :=
  let years := match ym with | some (y, _) => y | none => 0
  let months := match ym with | some (_, m) => m | none => 0
  match ds with
  | none => .intervalCompound years months 0 0 0 0 n
  | some d =>
      match compoundDayPart d with
      | .ok (p, ss) => .intervalCompound years months d.days d.seconds ss p n
      | _ => .nil

/-- `typeList[i] = fields[i].GetType()`, `expr/literals.go:1159-1162` -/
def Lit.getTypes : List Lit → Res (List Ty)
  | [] => .ok []
  | l :: ls => l.getType >>= fun t => Lit.getTypes ls >>= fun ts => .ok (t :: ts)

mutual
/-- `LiteralFromProto`, `expr/literals.go:1002-1268`. The outcome `ok .nil` is a nil literal. In
the struct case Go interleaves reading field `i` with taking its type; the two loops are done one
after the other here (both can only panic). -/
def literalFromProto : PLit → Res Lit
  | .nil => .panic
  | .mk nullable v k => literalKindFromProto (getNullability nullable) v k
/-- the switch, `expr/literals.go:1005-1267` -/
def literalKindFromProto (n : Nullability) (v : UInt32) : PLitKind → Res Lit
  | .unset => .panic
  | .boolean b => .ok (.prim (.bool b) (.prim .boolean n v))
  | .i8 i => .ok (.prim (.int8 i.toInt8) (.prim .i8 n v))
  | .i16 i => .ok (.prim (.int16 i.toInt16) (.prim .i16 n v))
  | .i32 i => .ok (.prim (.int32 i) (.prim .i32 n v))
  | .i64 i => .ok (.prim (.int64 i) (.prim .i64 n v))
  | .fp32 f => .ok (.prim (.float32 f) (.prim .fp32 n v))
  | .fp64 f => .ok (.prim (.float64 f) (.prim .fp64 n v))
  | .string s => .ok (.prim (.string s) (.prim .string n v))
  | .binary b => .ok (.bytes .binary b (.prim .binary n v))
  | .timestamp i => .ok (.prim (.timestamp i) (.prim .timestamp n v))
  | .date i => .ok (.prim (.date i) (.prim .date n v))
  | .time i => .ok (.prim (.time i) (.prim .time n v))
  | .intervalDayToSecond d => .ok (intervalDayFromProto n v d)
  | .fixedChar s => .ok (.prim (.fixedChar s) (.fixed .fixedChar n v (int32Len s)))
  | .varChar s len => .ok (.proto (.string s) (.fixed .varChar n v len.toInt32))
  | .fixedBinary b => .ok (.bytes .fixedBinary b (.fixed .fixedBinary n v (int32Len b)))
  | .decimal b p s => .ok (.proto (.bytes b) (.decimal n v s p))
  | .timestampTz i => .ok (.prim (.timestampTz i) (.prim .timestampTz n v))
  | .uuid b => .ok (.bytes .uuid b (.prim .uuid n v))
  | .null t => typeFromProto t >>= fun t => .ok (.null t)
  | .struct fs =>
      literalsFromProto fs >>= fun ls => Lit.getTypes ls >>= fun ts =>
      .ok (.struct ls (.struct n v ts))
  | .map kvs =>
      keyValuesFromProto kvs >>= fun ls =>
      match ls with
      | [] => .panic
      | .mk k e :: _ =>
          k.getType >>= fun tk => e.getType >>= fun te => .ok (.map ls (.map n v tk te))
  | .list vs =>
      literalsFromProto vs >>= fun ls =>
      match ls with
      | [] => .panic
      | l :: _ => l.getType >>= fun t => .ok (.list ls (.list n v t))
  | .emptyList none => .panic
  | .emptyList (some (_, _, e)) => typeFromProto e >>= fun t => .ok (.list [] (.list n v t))
  | .emptyMap none => .panic
  | .emptyMap (some (_, _, k, e)) =>
      typeFromProto k >>= fun tk => typeFromProto e >>= fun te =>
      .ok (.map [] (.map n v tk te))
  | .userDefined ref ps val =>
      paramsFromProto ps >>= fun ps => .ok (.proto (.udt val) (.udt n v ref ps))
  | .precisionTime p i => .ok (precisionFromProto .precisionTime n p i)
  | .precisionTimestamp p i => .ok (precisionFromProto .precisionTimestamp n p i)
  | .precisionTimestampTz p i => .ok (precisionFromProto .precisionTimestampTz n p i)
  | .intervalYearToMonth y m => .ok (.intervalYearToMonth y m n)
  | .intervalCompound ym ds => .ok (intervalCompoundFromProto n ym ds)
/-- the element loops, `expr/literals.go:1158-1162,1187-1190` -/
def literalsFromProto : List PLit → Res (List Lit)
  | [] => .ok []
  | m :: ms => literalFromProto m >>= fun l => literalsFromProto ms >>= fun ls => .ok (l :: ls)
/-- the entry loop, `expr/literals.go:1172-1176` -/
def keyValuesFromProto : List PKeyValue → Res (List KeyValue)
  | [] => .ok []
  | .mk k v :: kvs =>
      literalFromProto k >>= fun lk => literalFromProto v >>= fun lv =>
      keyValuesFromProto kvs >>= fun ls => .ok (.mk lk lv :: ls)
end

/-! ## Constructors -/

/-- The arguments of the generic `NewLiteral[T]`, by `T` (`expr/literals.go:892-998`);
`~int32`/`~int64`/`~string` types without a case are `PVal.other`. -/
inductive LitArg where
  | prim (v : PVal)
  | bytes (k : BKind) (b : List UInt8)
  | struct (fields : List Lit)
  | list (values : List Lit)
  | map (kvs : List KeyValue)
  | intervalYearToMonth (years months : Int32)
  | intervalDayToSecond (d : DaySecond)
  | varChar (s : List UInt8) (length : UInt32)
  | decimal (b : List UInt8) (precision scale : Int32)
  | userDefined (ref : UInt32) (params : List PParam) (val : PUdtVal)
  | precisionTime (precision : Int32) (value : Int64)
  | precisionTimestamp (precision : Int32) (value : Int64)
  | precisionTimestampTz (precision : Int32) (value : Int64)

/-- `NewPrimitiveLiteral` (`expr/literals.go:786-793`: the type is `PrimitiveType[T]` for the same
`T`) and `NewFixedCharLiteral` (795-803), as dispatched by `NewLiteral` (902-927). -/
def newPrimLiteral (v : PVal) (n : Nullability) : Res Lit :=
  match v with
  | .bool _ => .ok (.prim v (.prim .boolean n 0))
  | .int8 _ => .ok (.prim v (.prim .i8 n 0))
  | .int16 _ => .ok (.prim v (.prim .i16 n 0))
  | .int32 _ => .ok (.prim v (.prim .i32 n 0))
  | .int64 _ => .ok (.prim v (.prim .i64 n 0))
  | .float32 _ => .ok (.prim v (.prim .fp32 n 0))
  | .float64 _ => .ok (.prim v (.prim .fp64 n 0))
  | .string _ => .ok (.prim v (.prim .string n 0))
  | .timestamp _ => .ok (.prim v (.prim .timestamp n 0))
  | .date _ => .ok (.prim v (.prim .date n 0))
  | .time _ => .ok (.prim v (.prim .time n 0))
  | .timestampTz _ => .ok (.prim v (.prim .timestampTz n 0))
  | .fixedChar s => .ok (.prim v (.fixed .fixedChar n 0 (int32Len s)))
  | .other => .err

/-- `types.TimePrecision(v.GetPrecision())`, `expr/literals.go:948`: 0 unless the precision mode is
set -/
def DaySecond.getPrecision (d : DaySecond) : Int32 :=
  match d.mode with
  | .precision p => p
  | _ => 0

/-- `NewLiteral`, `expr/literals.go:900-998`, with `NewNestedLiteral` (818-850: index 0 of an empty
list or map panics), `NewByteSliceLiteral` (874-881), `NewFixedBinaryLiteral` (883-891). -/
def newLiteral (a : LitArg) (nullable : Bool) : Res Lit :=
  let n := getNullability nullable
  match a with
  | .prim v => newPrimLiteral v n
  | .bytes .binary b => .ok (.bytes .binary b (.prim .binary n 0))
  | .bytes .uuid b => .ok (.bytes .uuid b (.prim .uuid n 0))
  | .bytes .fixedBinary b => .ok (.bytes .fixedBinary b (.fixed .fixedBinary n 0 (int32Len b)))
  | .struct fs => Lit.getTypes fs >>= fun ts => .ok (.struct fs (.struct n 0 ts))
  | .map [] => .panic
  | .map (.mk k e :: kvs) =>
      k.getType >>= fun tk => e.getType >>= fun te =>
      .ok (.map (.mk k e :: kvs) (.map n 0 tk te))
  | .list [] => .panic
  | .list (l :: ls) => l.getType >>= fun t => .ok (.list (l :: ls) (.list n 0 t))
  | .intervalYearToMonth y m => .ok (.proto (.intervalYearToMonth y m) (.prim .intervalYear n 0))
  | .intervalDayToSecond d =>
      .ok (.proto (.intervalDayToSecond d) (.prec .intervalDay n 0 d.getPrecision))
  | .decimal b p s =>
      if b.length ≠ 16 then .err else .ok (.proto (.bytes b) (.decimal n 0 s p))
  | .userDefined ref ps val =>
      paramsFromProto ps >>= fun ps => .ok (.proto (.udt val) (.udt n 0 ref ps))
  | .varChar s len => .ok (.proto (.string s) (.fixed .varChar n 0 len.toInt32))
  | .precisionTime p v => .ok (.proto (.int64 v) (.prec .precisionTime n 0 p))
  | .precisionTimestamp p v => .ok (.proto (.int64 v) (.prec .precisionTimestamp n 0 p))
  | .precisionTimestampTz p v => .ok (.proto (.int64 v) (.prec .precisionTimestampTz n 0 p))

/-- `NewNullLiteral`, `expr/literals.go:104-106` (returned value only) -/
def newNullLiteral (t : Ty) : Lit := .null (t.withNullability NullabilityNullable)

/-- `literal == nil`, `literal/utils.go:407,413` -/
def Lit.isNil : Lit → Bool
  | .nil => true
  | _ => false

/-- The loop of `hasTypeMismatch`, `literal/utils.go:412-416` -/
def hasTypeMismatchFrom (expected : Ty) : List Lit → Res Bool
  | [] => .ok false
  | l :: ls =>
      if l.isNil then .ok true
      else l.getType >>= fun t => expected.equals t >>= fun b =>
        if !b then .ok true else hasTypeMismatchFrom expected ls

/-- `hasTypeMismatch`, `literal/utils.go:406-418`; the index it also returns only goes into the
error text and is left out. -/
def hasTypeMismatch : List Lit → Res Bool
  | [] => .panic
  | l :: ls =>
      if l.isNil then .ok true
      else l.getType >>= fun t => hasTypeMismatchFrom t ls

/-- `NewList`, `literal/utils.go:423-431` -/
def newList (elements : List Lit) (nullable : Bool) : Res Lit :=
  if elements.length = 0 then .err
  else hasTypeMismatch elements >>= fun bad =>
    if bad then .err else newLiteral (.list elements) nullable

/-- key and value of an entry, `literal/utils.go:442-444` -/
def KeyValue.key : KeyValue → Lit
  | .mk k _ => k
/-- key and value of an entry, `literal/utils.go:442-444` -/
def KeyValue.value : KeyValue → Lit
  | .mk _ v => v

/-- `NewMap`, `literal/utils.go:436-452` -/
def newMap (entries : List KeyValue) (nullable : Bool) : Res Lit :=
  if entries.length = 0 then .err
  else hasTypeMismatch (entries.map KeyValue.key) >>= fun badKey =>
    if badKey then .err
    else hasTypeMismatch (entries.map KeyValue.value) >>= fun badValue =>
      if badValue then .err else newLiteral (.map entries) nullable

/-- `NewEmptyList`, `literal/utils.go:468-473` and `expr/literals.go:866-872` -/
def newEmptyList (t : Ty) (nullable : Bool) : Lit := .list [] (.list (getNullability nullable) 0 t)

/-- `NewEmptyMap`, `literal/utils.go:456-464` and `expr/literals.go:854-862` -/
def newEmptyMap (k e : Ty) (nullable : Bool) : Lit :=
  .map [] (.map (getNullability nullable) 0 k e)

end Verif

import Verif.Model.WithType
import Verif.Model.DayInterval
import Verif.Model.FuncTypes
/-!
# Function test files: types, literals, arguments

Models the visitor of `testcases/parser/visitor.go` on parse trees. The trees are those the grammar
produces; texts of tokens are byte strings. Every error the visitor reports and every panic makes
`parseTestCasesFromStream` return an error (`testcases/parser/parse.go:44-69` with
`types/parser/util/error_listener.go`), so the functions below stop at the first one.
-/

namespace Verif

/-- What is external: `parseTimeFromString` (`literal/utils.go:91-106`, Go's time layouts),
`time.Parse("2006-01-02", ..)` (55), `strconv.ParseFloat` as IEEE bits, the conversion
`float32(float64)`, the reading of decimal texts (`expr/decimal_util.go:20-34`: the regular expression
and `apd.NewFromString`; the expression admits finite numbers only), and the conversion of large seconds
of `Model/DayInterval.lean`. -/
structure TcExt where
  parseTime : Bytes → Res GoTime
  parseDate : Bytes → Res GoTime
  parseFloat : Bytes → Res UInt64
  toFloat32 : UInt64 → UInt32
  parseDec : Bytes → Res Dec
  big : ℚ → Int × Int × Int

/-! ## Types -/

/-- The parse trees of data types; the flag tells whether the token `?` is there. User defined types,
`interval_compound` and function types are `other`. -/
inductive TcType where
  | prim (k : Prim) (isnull : Bool)
  | decimal (isnull : Bool) (params : Option (Bytes × Bytes))
  | prec (k : Prec) (isnull : Bool) (precision : Option Bytes)
  | fixed (k : Fixed) (isnull : Bool) (len : Bytes)
  | list (isnull : Bool) (elem : TcType)
  | other

/-- `VisitIntegerLiteral`, `testcases/parser/visitor.go:1059-1065` -/
def tcIntegerLiteral (text : Bytes) : Res Int32 := atoi text >>= fun v => .ok (Int32.ofInt v)

/-- The type visitors, `testcases/parser/visitor.go:918-1057,1067-1109` with `getNullability` (20-25). A
precision that is missing panics unless the type is `interval_day` (1087-1093). Visitors that do not
exist and those that report an error give `.err`. -/
def tcType : TcType → Res Ty
  | .prim k q => .ok (.prim k (getNullability q) 0)
  | .decimal q none => .ok (.decimal (getNullability q) 0 0 38)
  | .decimal q (some (p, s)) =>
      tcIntegerLiteral p >>= fun p => tcIntegerLiteral s >>= fun s =>
      .ok (.decimal (getNullability q) 0 s p)
  | .prec k q none =>
      match k with
      | .intervalDay => .ok (.prec k (getNullability q) 0 0)
      | _ => .panic
  | .prec k q (some p) => tcIntegerLiteral p >>= fun p => .ok (.prec k (getNullability q) 0 p)
  | .fixed k q len => tcIntegerLiteral len >>= fun l => .ok (.fixed k (getNullability q) 0 l)
  | .list q e => tcType e >>= fun t => .ok (.list (getNullability q) 0 t)
  | .other => .err

/-! ## Literals -/

/-- `nullability == types.NullabilityNullable`, e.g. `testcases/parser/visitor.go:453` -/
def Ty.isNullable (t : Ty) : Bool := t.nullability == NullabilityNullable

/-- `getRawStringFromStringLiteral`, `testcases/parser/visitor.go:636-638`: `strings.Trim` takes every
quote from both ends. -/
def rawString (text : Bytes) : Bytes :=
  ((text.dropWhile (· == 39)).reverse.dropWhile (· == 39)).reverse

/-- `getIntLiteral`, `testcases/parser/visitor.go:555-573`; `strconv.ParseInt(s, 10, 64)` accepts what
`Atoi` accepts. -/
def getIntLiteral (text : Bytes) (t : Ty) : Res Lit :=
  atoi text >>= fun v =>
  match t with
  | .prim .i8 _ _ => newLiteral (.prim (.int8 (Int8.ofInt v))) t.isNullable
  | .prim .i16 _ _ => newLiteral (.prim (.int16 (Int16.ofInt v))) t.isNullable
  | .prim .i32 _ _ => newLiteral (.prim (.int32 (Int32.ofInt v))) t.isNullable
  | .prim .i64 _ _ => newLiteral (.prim (.int64 (Int64.ofInt v))) t.isNullable
  | _ => .err

/-- `getFloatLiteral`, `testcases/parser/visitor.go:539-553` -/
def getFloatLiteral (x : TcExt) (text : Bytes) (t : Ty) : Res Lit :=
  x.parseFloat text >>= fun v =>
  match t with
  | .prim .fp32 _ _ => newLiteral (.prim (.float32 (x.toFloat32 v))) t.isNullable
  | .prim .fp64 _ _ => newLiteral (.prim (.float64 v)) t.isNullable
  | _ => .err

/-- `NewDecimalFromString`, `literal/utils.go:318-324` -/
def newDecimalFromString (x : TcExt) (text : Bytes) (nullable : Bool) : Res Lit :=
  x.parseDec text >>= fun d => decimalToBytes d >>= fun (b, p, s) =>
  newLiteral (.decimal (b.take 16) (Int32.ofInt p) (Int32.ofInt s)) nullable

/-- `NewVarChar`, `literal/utils.go:297-299` -/
def newVarCharLiteral (s : Bytes) (nullable : Bool) : Res Lit :=
  newLiteral (.varChar s (UInt32.ofNat s.length)) nullable

/-- `NewDateFromString`, `literal/utils.go:50-60` -/
def newDateFromString (x : TcExt) (s : Bytes) (nullable : Bool) : Res Lit :=
  x.parseDate s >>= fun tm => newLiteral (.prim (.date (Int32.ofInt (goDiv tm.unix 86400)))) nullable

/-- `NewTimeFromString`, `literal/utils.go:81-89`. Simplification: hour, minute and second are those of
UTC; time tokens carry no offset. -/
def newTimeFromString (x : TcExt) (s : Bytes) (nullable : Bool) : Res Lit :=
  x.parseTime s >>= fun ts =>
  newTimeFromMicros (ts.sec % 86400 * 1000000 + goDiv ts.nsec 1000) >>= fun micros =>
  newLiteral (.prim (.time (Int64.ofInt micros))) nullable

/-- `NewTimestampFromString`, `literal/utils.go:110-120` -/
def newTimestampFromString (x : TcExt) (s : Bytes) (nullable : Bool) : Res Lit :=
  x.parseTime s >>= fun tm => newLiteral (.prim (.timestamp (Int64.ofInt tm.unixMicro))) nullable

/-- `NewTimestampTZFromString`, `literal/utils.go:128-138` -/
def newTimestampTzFromString (x : TcExt) (s : Bytes) (nullable : Bool) : Res Lit :=
  x.parseTime s >>= fun tm => newLiteral (.prim (.timestampTz (Int64.ofInt tm.unixMicro))) nullable

/-- `NewIntervalYearsToMonthFromString`, `literal/utils.go:144-150` -/
def newIntervalYearFromString (s : Bytes) (nullable : Bool) : Res Lit :=
  parseIntervalYearsToMonth s >>= fun (y, m) =>
  newLiteral (.intervalYearToMonth (Int32.ofInt y) (Int32.ofInt m)) nullable

/-- `NewIntervalDaysToSecondFromString`, `literal/utils.go:192-205` -/
def newIntervalDayFromString (x : TcExt) (s : Bytes) (nullable : Bool) : Res Lit :=
  parseIntervalDaysToSecond x.big s >>= fun d =>
  newLiteral (.intervalDayToSecond ⟨Int32.ofInt d.days, Int32.ofInt d.seconds,
    .precision (Int32.ofNat d.precision), Int64.ofInt d.subseconds⟩) nullable

/-- The argument of `NewLiteral` for a value of the given kind, `literal/utils.go:334-339,363-370,
386-393` -/
def precLitArg (k : Prec) (p : Int32) (v : Int64) : LitArg :=
  match k with
  | .precisionTime => .precisionTime p v
  | .precisionTimestamp => .precisionTimestamp p v
  | .precisionTimestampTz => .precisionTimestampTz p v
  | .intervalDay => .prim .other

/-- `NewPrecisionTimeFromString`, `NewPrecisionTimestampFromString`,
`NewPrecisionTimestampTzFromString`, `literal/utils.go:343-401`: a time of day keeps the duration since
midnight only. Negative precisions panic like those above 9. -/
def newPrecFromString (x : TcExt) (k : Prec) (p : Int32) (s : Bytes) (nullable : Bool) : Res Lit :=
  x.parseTime s >>= fun tm =>
  let tm := match k with
    | .precisionTime => (⟨tm.sec % 86400, tm.nsec⟩ : GoTime)
    | _ => tm
  if p < 0 then .panic
  else getTimeValueByPrecision tm p.toInt.toNat >>= fun v =>
    newLiteral (precLitArg k p (Int64.ofInt v)) nullable

/-- `getLiteralFromString`, `testcases/parser/visitor.go:468-537`: nil, without an error, for types that
have no case. -/
def literalFromString (x : TcExt) (value : Bytes) (t : Ty) : Res (Option Lit) :=
  match t with
  | .prim .i8 _ _ => getIntLiteral value t >>= fun l => .ok (some l)
  | .prim .i16 _ _ => getIntLiteral value t >>= fun l => .ok (some l)
  | .prim .i32 _ _ => getIntLiteral value t >>= fun l => .ok (some l)
  | .prim .i64 _ _ => getIntLiteral value t >>= fun l => .ok (some l)
  | .prim .fp32 _ _ => getFloatLiteral x value t >>= fun l => .ok (some l)
  | .prim .fp64 _ _ => getFloatLiteral x value t >>= fun l => .ok (some l)
  | .prim .string _ _ => newLiteral (.prim (.string value)) t.isNullable >>= fun l => .ok (some l)
  | .prim .binary _ _ => newLiteral (.bytes .binary value) t.isNullable >>= fun l => .ok (some l)
  | .decimal .. =>
      newDecimalFromString x value false >>= fun l => l.withType t >>= fun l => .ok (some l)
  | .fixed .fixedChar _ _ _ =>
      newLiteral (.prim (.fixedChar value)) t.isNullable >>= fun l => l.withType t >>= fun l =>
      .ok (some l)
  | .fixed .fixedBinary _ _ _ =>
      newLiteral (.bytes .fixedBinary value) t.isNullable >>= fun l => l.withType t >>= fun l =>
      .ok (some l)
  | .fixed .varChar _ _ _ =>
      newVarCharLiteral value t.isNullable >>= fun l => l.withType t >>= fun l => .ok (some l)
  | _ => .ok none

/-- The parse trees of untyped literals; the texts of all but numbers still have their quotes. -/
inductive TcLit where
  | null
  | bool (b : Bool)
  | numeric (text : Bytes)
  | string (text : Bytes)
  | date (text : Bytes)
  | time (text : Bytes)
  | timestamp (text : Bytes)
  | timestampTz (text : Bytes)
  | intervalYear (text : Bytes)
  | intervalDay (text : Bytes)
  | intervalCompound (text : Bytes)

/-- `literalTypeInContext` as a nullability flag, `testcases/parser/visitor.go:800-803` -/
def ctxNullable : Option Ty → Bool
  | some t => t.isNullable
  | none => false

/-- `VisitLiteral`, `testcases/parser/visitor.go:799-893`, with the type in context as argument; `none` is a
nil literal. -/
def visitLiteral (x : TcExt) (ctx : Option Ty) (l : TcLit) : Res (Option Lit) :=
  match l with
  | .bool b => newLiteral (.prim (.bool b)) (ctxNullable ctx) >>= fun l => .ok (some l)
  | .date s => newDateFromString x (rawString s) (ctxNullable ctx) >>= fun l => .ok (some l)
  | .time s => newTimeFromString x (rawString s) (ctxNullable ctx) >>= fun l => .ok (some l)
  | .timestamp s => newTimestampFromString x (rawString s) (ctxNullable ctx) >>= fun l => .ok (some l)
  | .timestampTz s => newTimestampTzFromString x (rawString s) (ctxNullable ctx) >>= fun l => .ok (some l)
  | .intervalYear s => newIntervalYearFromString (rawString s) (ctxNullable ctx) >>= fun l => .ok (some l)
  | .intervalDay s =>
      newIntervalDayFromString x (rawString s) (ctxNullable ctx) >>= fun l =>
      match ctx with
      | some (.prec .intervalDay n v p) =>
          l.withType (.prec .intervalDay n v p) >>= fun l => .ok (some l)
      | _ => .ok (some l)
  | .numeric s =>
      match ctx with
      | none => newLiteral (.prim (.string s)) false >>= fun l => .ok (some l)
      | some t => literalFromString x s t
  | .string s =>
      match ctx with
      | none => newLiteral (.prim (.string (rawString s))) false >>= fun l => .ok (some l)
      | some t =>
          literalFromString x (rawString s) t >>= fun r =>
          match r with
          | some l => .ok (some l)
          | none => newLiteral (.prim (.string (rawString s))) false >>= fun l => .ok (some l)
  | .null =>
      match ctx with
      | none => .ok (some (newNullLiteral (.decimal NullabilityNullable 0 0 38)))
      | some t => .ok (some (newNullLiteral t))
  | .intervalCompound _ => .err

/-! ## Arguments -/

/-- The elements of a list argument. -/
inductive TcElem where
  | lit (l : TcLit)
  | list (es : List TcElem)

/-- The parse trees of arguments (`argument` in the grammar); interval compound and lambda arguments are
`unsupported`. -/
inductive TcArg where
  | null (t : TcType)
  | int (k : Prim) (isnull : Bool) (text : Bytes)
  | float (k : Prim) (isnull : Bool) (text : Bytes)
  | bool (isnull : Bool) (b : Bool)
  | string (isnull : Bool) (text : Bytes)
  | decimal (isnull : Bool) (params : Option (Bytes × Bytes)) (text : Bytes)
  | date (isnull : Bool) (text : Bytes)
  | time (isnull : Bool) (text : Bytes)
  | timestamp (isnull : Bool) (text : Bytes)
  | timestampTz (isnull : Bool) (text : Bytes)
  | intervalYear (isnull : Bool) (text : Bytes)
  | intervalDay (isnull : Bool) (precision : Option Bytes) (text : Bytes)
  | fixed (k : Fixed) (isnull : Bool) (len : Bytes) (text : Bytes)
  | prec (k : Prec) (isnull : Bool) (precision : Option Bytes) (text : Bytes)
  | list (isnull : Bool) (elem : TcType) (es : List TcElem)
  | enum (name : Bytes)
  | unsupported

/-- `CaseLiteral.Value`: a literal or an enum argument, `testcases/parser/nodes.go:40` -/
inductive CaseVal where
  | lit (l : Lit)
  | enum (name : Bytes)

/-- `CaseLiteral`, `testcases/parser/nodes.go:34-41`; the original text is left out. -/
structure CaseLit where
  type : Ty
  value : CaseVal

/-- `types.CommonEnumType`, `types/types.go:555` -/
def commonEnumTy : Ty := .enum true 0 0 "" []

mutual
/-- A null literal is visited while the type in context is `interval_day`: `NewNullLiteral` then writes to
the type object itself (`expr/literals.go:104-106`, `types/interval_day_type.go:21-24`). -/
def TcElem.marks (ctx : Ty) : TcElem → Bool
  | .lit .null => match ctx with | .prec .intervalDay .. => true | _ => false
  | .lit _ => false
  | .list es => match ctx with
      | .list _ _ t => TcElem.marksAny t es
      | _ => TcElem.marksAny ctx es
/-- the elements of a list, see `TcElem.marks` -/
def TcElem.marksAny (ctx : Ty) : List TcElem → Bool
  | [] => false
  | e :: es => TcElem.marks ctx e || TcElem.marksAny ctx es
end

/-- What the write of `TcElem.marks` does to the type: the innermost element type becomes nullable,
`types/interval_day_type.go:21-24` -/
def Ty.markInterval : Ty → Ty
  | .prec .intervalDay _ v p => .prec .intervalDay NullabilityNullable v p
  | .list n v t => .list n v t.markInterval
  | t => t

/-- `lt.Type` when the type in context is a list, `testcases/parser/visitor.go:773-777` -/
def ctxElem : Ty → Ty
  | .list _ _ t => t
  | t => t

mutual
/-- `VisitListElement`, `testcases/parser/visitor.go:764-797` -/
def visitElem (x : TcExt) (ctx : Ty) : TcElem → Res (Option Lit)
  | .lit l => visitLiteral x (some ctx) l
  | .list es =>
      visitElems x (ctxElem ctx) es >>= fun values =>
      if values.length = 0 then
        match ctxElem ctx with
        | .list _ _ t => .ok (some (newEmptyList t false))
        | _ => .err
      else newList values false >>= fun l => .ok (some l)
/-- `VisitLiteralList`, `testcases/parser/visitor.go:750-762`: nil results are left out. -/
def visitElems (x : TcExt) (ctx : Ty) : List TcElem → Res (List Lit)
  | [] => .ok []
  | e :: es =>
      visitElem x ctx e >>= fun r => visitElems x ctx es >>= fun ls =>
      match r with
      | some l => .ok (l :: ls)
      | none => .ok ls
end

/-- `VisitListArg`, `testcases/parser/visitor.go:731-748`. The element type is one object shared by the
declared type and all elements, so a null element of an `interval_day` list makes all of them nullable
(`TcElem.marks`); elements visited before that and taking over the old nullability can only be of another
type, which the list refuses. -/
def visitListArg (x : TcExt) (isnull : Bool) (elem : TcType) (es : List TcElem) : Res CaseLit :=
  tcType elem >>= fun t =>
  let t := if TcElem.marksAny t es then t.markInterval else t
  let listType := Ty.list (getNullability isnull) 0 t
  visitElems x t es >>= fun values =>
  if values.length = 0 then .ok ⟨listType, .lit (newEmptyList t false)⟩
  else newList values false >>= fun l => .ok ⟨listType, .lit l⟩

/-- `VisitArgument`, `testcases/parser/visitor.go:368-441`, with the visitors of the kinds of arguments,
443-454,575-634,640-729. -/
def visitArgument (x : TcExt) : TcArg → Res CaseLit
  | .null t =>
      tcType t >>= fun t => if !t.isNullable then .err else .ok ⟨t, .lit (newNullLiteral t)⟩
  | .int k q text =>
      tcType (.prim k q) >>= fun t => getIntLiteral text t >>= fun l => .ok ⟨t, .lit l⟩
  | .float k q text =>
      tcType (.prim k q) >>= fun t => getFloatLiteral x text t >>= fun l => l.getType >>= fun t =>
      .ok ⟨t, .lit l⟩
  | .bool q b =>
      newLiteral (.prim (.bool b)) q >>= fun l => .ok ⟨.prim .boolean (getNullability q) 0, .lit l⟩
  | .string q text =>
      newLiteral (.prim (.string (rawString text))) q >>= fun l =>
      .ok ⟨.prim .string (getNullability q) 0, .lit l⟩
  | .decimal q ps text =>
      tcType (.decimal q ps) >>= fun t => newDecimalFromString x text t.isNullable >>= fun l =>
      .ok ⟨t, .lit l⟩
  | .date q text =>
      newDateFromString x (rawString text) q >>= fun l => .ok ⟨.prim .date (getNullability q) 0, .lit l⟩
  | .time q text =>
      newTimeFromString x (rawString text) q >>= fun l => .ok ⟨.prim .time (getNullability q) 0, .lit l⟩
  | .timestamp q text =>
      newTimestampFromString x (rawString text) q >>= fun l =>
      .ok ⟨.prim .timestamp (getNullability q) 0, .lit l⟩
  | .timestampTz q text =>
      newTimestampTzFromString x (rawString text) q >>= fun l =>
      .ok ⟨.prim .timestampTz (getNullability q) 0, .lit l⟩
  | .intervalYear q text =>
      newIntervalYearFromString (rawString text) q >>= fun l =>
      .ok ⟨.prim .intervalYear (getNullability q) 0, .lit l⟩
  | .intervalDay q p text =>
      tcType (.prec .intervalDay q p) >>= fun t =>
      newIntervalDayFromString x (rawString text) t.isNullable >>= fun l => .ok ⟨t, .lit l⟩
  | .fixed k q len text =>
      tcType (.fixed k q len) >>= fun t =>
      match k with
      | .fixedChar =>
          newLiteral (.prim (.fixedChar (rawString text))) t.isNullable >>= fun l => .ok ⟨t, .lit l⟩
      | .varChar => newVarCharLiteral (rawString text) t.isNullable >>= fun l => .ok ⟨t, .lit l⟩
      | .fixedBinary =>
          newLiteral (.bytes .fixedBinary (rawString text)) t.isNullable >>= fun l => .ok ⟨t, .lit l⟩
  | .prec k q p text =>
      tcType (.prec k q p) >>= fun t =>
      match t with
      | .prec _ _ _ p =>
          newPrecFromString x k p (rawString text) t.isNullable >>= fun l => .ok ⟨t, .lit l⟩
      | _ => .panic
  | .list q e es => visitListArg x q e es
  | .enum name => .ok ⟨commonEnumTy, .enum name⟩
  | .unsupported => .err

/-- `updateLiteralType`, `testcases/parser/nodes.go:98-118` -/
def CaseLit.updateType (c : CaseLit) : Res CaseLit :=
  if c.type.getParameters.length = 0 then .ok c
  else
    match c.value with
    | .lit (.null t) => .ok ⟨c.type, .lit (.null t)⟩
    | .lit l => l.withType c.type >>= fun l => .ok ⟨c.type, .lit l⟩
    | .enum _ => .err

/-- One argument of a scalar call or the value of a result, `testcases/parser/visitor.go:356-366,895-904` -/
def visitTypedArgument (x : TcExt) (a : TcArg) : Res CaseLit :=
  visitArgument x a >>= CaseLit.updateType

/-- `VisitArguments`, `testcases/parser/visitor.go:356-366` -/
def visitArguments (x : TcExt) (as : List TcArg) : Res (List CaseLit) := Res.mapL (visitTypedArgument x) as

end Verif

import Verif.Model.TestLex
import Verif.Model.LocalTypes
import Verif.Model.DayIntervalText
import Verif.Model.Decimal
/-!
# Printing of test cases

Models `CaseLiteral.String`, `literalToString` (`testcases/parser/nodes.go:44-81`) and the printing of literals that they
use (`expr/literals.go:114-116,163-176,265-275,428-441,527-585`).
-/

namespace Verif

/-- Printing that is external or not modelled: floats (`%v`), dates (`types/types.go:1819-1823`), times
(1854-1862,1876-1884,1894-1902), the layouts of `expr/literals.go:529-537,555-563`, `apd.Decimal`
(`expr/decimal_util.go:97-116`), bytes (`%v`, `expr/literals.go:439`) and all other literals. `iso` tells which of the
two methods is meant. -/
structure TcFmt where
  float32 : UInt32 → Bytes
  float64 : UInt64 → Bytes
  date : Int32 → Bytes
  time : (iso : Bool) → Int64 → Bytes
  timestamp : (iso : Bool) → Int64 → Bytes
  timestampTz : (iso : Bool) → Int64 → Bytes
  prec : (iso : Bool) → Prec → Int32 → Int64 → Bytes
  decimal : Dec → Bytes
  bytes : BKind → Bytes → Bytes
  other : Lit → Bytes

/-- `strings.Join`, `expr/literals.go:272` (external) -/
def joinBytes (sep : Bytes) : List Bytes → Bytes
  | [] => []
  | [a] => a
  | a :: b :: r => a ++ sep ++ joinBytes sep (b :: r)

/-- one digit of `hex.EncodeToString` (external), `expr/literals.go:437` -/
def hexDigit (n : Nat) : UInt8 := UInt8.ofNat (if n < 10 then 48 + n else 87 + n)

/-- `hex.EncodeToString` (external), `expr/literals.go:437` -/
def hexText (b : Bytes) : Bytes := b.flatMap fun c => [hexDigit (c.toNat / 16), hexDigit (c.toNat % 16)]

/-- `"true"` and `"false"`, `fmt.Sprintf("%v", ..)` (external), `expr/literals.go:167` -/
def boolText : Bool → Bytes
  | true => [116, 114, 117, 101]
  | false => [102, 97, 108, 115, 101]

/-- `ValueString` of a `PrimitiveLiteral`, `expr/literals.go:163-168` -/
def PVal.valueString (f : TcFmt) : PVal → Bytes
  | .bool b => boolText b
  | .int8 i => intText i.toInt
  | .int16 i => intText i.toInt
  | .int32 i => intText i.toInt
  | .int64 i => intText i.toInt
  | .float32 v => f.float32 v
  | .float64 v => f.float64 v
  | .string s => s
  | .timestamp i => f.timestamp false i
  | .date i => f.date i
  | .time i => f.time false i
  | .fixedChar s => s
  | .timestampTz i => f.timestampTz false i
  | .other => f.other (.prim .other (.udt 0 0 0 []))

/-- `IsoValueString` of a `PrimitiveLiteral`, `expr/literals.go:170-176`; dates have no `ToIsoTimeString`. -/
def PVal.isoValueString (f : TcFmt) : PVal → Bytes
  | .timestamp i => f.timestamp true i
  | .time i => f.time true i
  | .timestampTz i => f.timestampTz true i
  | v => v.valueString f

/-- `"%d years, %d months"`, `expr/literals.go:543` -/
def yearsMonthsText (y m : Int) : Bytes :=
  intText y ++ [32, 121, 101, 97, 114, 115, 44, 32] ++ intText m ++ [32, 109, 111, 110, 116, 104, 115]

/-- `"%d days, %d seconds, %d subseconds"`, `expr/literals.go:547` -/
def daySecondsText (d : DaySecond) : Bytes :=
  intText d.days.toInt ++ [32, 100, 97, 121, 115, 44, 32] ++ intText d.seconds.toInt ++
    [32, 115, 101, 99, 111, 110, 100, 115, 44, 32] ++ intText d.subseconds.toInt ++
    [32, 115, 117, 98, 115, 101, 99, 111, 110, 100, 115]

/-- `ValueString` of a `ProtoLiteral`, `expr/literals.go:527-550`. A value of another type than the literal's type
demands panics, but for intervals, where it counts as zero (542,546). -/
def ProtoVal.valueString (f : TcFmt) (v : ProtoVal) (t : Ty) : Res Bytes :=
  match t, v with
  | .prec .intervalDay _ _ _, .intervalDayToSecond d => .ok (daySecondsText d)
  | .prec .intervalDay _ _ _, _ => .ok (daySecondsText ⟨0, 0, .unset, 0⟩)
  | .prec k _ _ p, .int64 i => .ok (f.prec false k p i)
  | .prec _ _ _ _, _ => .panic
  | .decimal _ _ s _, .bytes b =>
      if b.length < 16 then .panic else .ok (f.decimal (decimalBytesToDec (b.take 16) s.toInt))
  | .decimal .., _ => .panic
  | .prim .intervalYear _ _, .intervalYearToMonth y m => .ok (yearsMonthsText y.toInt m.toInt)
  | .prim .intervalYear _ _, _ => .ok (yearsMonthsText 0 0)
  | _, .string s => .ok s
  | t, v => .ok (f.other (.proto v t))

/-- `IsoValueString` of a `ProtoLiteral`, `expr/literals.go:553-585`. Simplification: negative precisions count as 0;
types are read with the precisions that the files give. -/
def ProtoVal.isoValueString (f : TcFmt) (v : ProtoVal) (t : Ty) : Res Bytes :=
  match t, v with
  | .prec .intervalDay _ _ p, .intervalDayToSecond d =>
      intervalDayIso ⟨d.days.toInt, d.seconds.toInt, d.subseconds.toInt, p.toInt.toNat⟩
  | .prec .intervalDay _ _ _, _ => intervalDayIso ⟨0, 0, 0, 0⟩
  | .prec k _ _ p, .int64 i => .ok (f.prec true k p i)
  | .prec _ _ _ _, _ => .panic
  | .prim .intervalYear _ _, .intervalYearToMonth y m => .ok (intervalYearIso y.toInt m.toInt)
  | .prim .intervalYear _ _, _ => .ok (intervalYearIso 0 0)
  | t, v => v.valueString f t

mutual
/-- `ValueString` of literals, `expr/literals.go:114-116,163-168,265-275,428-441,527-550` -/
def Lit.valueString (f : TcFmt) : Lit → Res Bytes
  | .nil => .panic
  | .null _ => .ok [110, 117, 108, 108]
  | .prim v _ => .ok (v.valueString f)
  | .bytes .fixedBinary b _ => .ok (48 :: 120 :: hexText b)
  | .bytes k b _ => .ok (f.bytes k b)
  | .list vs _ => Lit.valueStrings f vs >>= fun items => .ok (91 :: joinBytes [44, 32] items ++ [93])
  | .proto v t => v.valueString f t
  | l => .ok (f.other l)
/-- the loop `expr/literals.go:269-271` -/
def Lit.valueStrings (f : TcFmt) : List Lit → Res (List Bytes)
  | [] => .ok []
  | l :: ls => Lit.valueString f l >>= fun s => Lit.valueStrings f ls >>= fun r => .ok (s :: r)
end

/-- between quotes, `testcases/parser/nodes.go:70,77` -/
def tcQuoted (s : Bytes) : Bytes := 39 :: (s ++ [39])

/-- the types of the first switch, `testcases/parser/nodes.go:66-69` -/
def Ty.quotedIso : Ty → Bool
  | .prim .intervalYear _ _ => true
  | .prec _ _ _ _ => true
  | .prim .timestamp _ _ => true
  | .prim .time _ _ => true
  | .prim .timestampTz _ _ => true
  | _ => false

/-- the types of the second switch, `testcases/parser/nodes.go:75-76` -/
def Ty.quotedPlain : Ty → Bool
  | .prim .string _ _ => true
  | .fixed _ _ _ _ => true
  | .prim .binary _ _ => true
  | .prim .date _ _ => true
  | _ => false

/-- the second half of `literalToString`, `testcases/parser/nodes.go:73-80` -/
def literalToStringPlain (f : TcFmt) (l : Lit) (t : Ty) : Res Bytes :=
  l.valueString f >>= fun s => .ok (if t.quotedPlain then tcQuoted s else s)

/-- `literalToString`, `testcases/parser/nodes.go:55-81` -/
def literalToString (f : TcFmt) : Lit → Res Bytes
  | .nil => .panic
  | .null t => (Lit.null t).valueString f
  | .prim v t => if t.quotedIso then .ok (tcQuoted (v.isoValueString f)) else literalToStringPlain f (.prim v t) t
  | .proto v t =>
      if t.quotedIso then v.isoValueString f t >>= fun s => .ok (tcQuoted s) else literalToStringPlain f (.proto v t) t
  | l => l.getType >>= fun t => literalToStringPlain f l t

/-- `CaseLiteral.String`, `testcases/parser/nodes.go:44-53`: what stands before `::` and what stands after it. The text
of an enum argument is its name (`testcases/parser/visitor.go:696-699`). -/
def CaseLit.string (f : TcFmt) (c : CaseLit) : Res (Bytes × String) :=
  match c.value with
  | .lit l => literalToString f l >>= fun s => .ok (s, c.type.string)
  | .enum name => .ok (name, "enum")

end Verif

import Verif.Model.Literals
import Verif.Model.Time
/-!
# The constructors of package `literal`

Models the functions of `literal/utils.go` that make a literal from numbers, bytes and `time.Time`
values. Lists and maps are in `Model/Literals.lean`, constructors that read text in
`Model/TestCase.lean`.

A `time.Time` is an instant together with the offset from UTC that its `Location` has at that
instant. A Go `int` has 64 bits.
-/

namespace Verif

/-- `time.Time` (external) with its location's offset from UTC in seconds -/
structure ZonedTime where
  instant : GoTime
  offset : Int
  deriving DecidableEq, Repr

/-- A call of one of the constructors, with its arguments other than `nullable` -/
inductive LitCall where
  /-- `NewBool`, `literal/utils.go:18-20` -/
  | bool (v : Bool)
  /-- `NewInt8`, `literal/utils.go:22-24` -/
  | int8 (v : Int8)
  /-- `NewInt16`, `literal/utils.go:26-28` -/
  | int16 (v : Int16)
  /-- `NewInt32`, `literal/utils.go:30-32` -/
  | int32 (v : Int32)
  /-- `NewInt64`, `literal/utils.go:34-36` -/
  | int64 (v : Int64)
  /-- `NewFloat32`, `literal/utils.go:38-40`, by bit pattern -/
  | float32 (bits : UInt32)
  /-- `NewFloat64`, `literal/utils.go:42-44`, by bit pattern -/
  | float64 (bits : UInt64)
  /-- `NewString`, `literal/utils.go:46-48` -/
  | string (s : List UInt8)
  /-- `NewDate`, `literal/utils.go:50-52` -/
  | date (days : Int64)
  /-- `NewTime`, `literal/utils.go:64-71` -/
  | time (hours minutes seconds microseconds : Int32)
  /-- `NewTimeFromMicros`, `literal/utils.go:74-79` -/
  | timeFromMicros (micros : Int64)
  /-- `NewTimestamp`, `literal/utils.go:110-112` -/
  | timestamp (tm : ZonedTime)
  /-- `NewTimestampFromMicros`, `literal/utils.go:122-124` -/
  | timestampFromMicros (micros : Int64)
  /-- `NewTimestampTZ`, `literal/utils.go:128-130` -/
  | timestampTz (tm : ZonedTime)
  /-- `NewTimestampTZFromMicros`, `literal/utils.go:140-142` -/
  | timestampTzFromMicros (micros : Int64)
  /-- `NewIntervalYearsToMonth`, `literal/utils.go:188-190` -/
  | intervalYearsToMonth (years months : Int32)
  /-- `NewIntervalDaysToSecond`, `literal/utils.go:266-275` -/
  | intervalDaysToSecond (days seconds : Int32) (micros : Int64)
  /-- `NewUUID`, `literal/utils.go:277-283`; a `uuid.UUID` is an array of 16 bytes -/
  | uuid (guid : Vector UInt8 16)
  /-- `NewUUIDFromBytes`, `literal/utils.go:285-287` -/
  | uuidFromBytes (b : List UInt8)
  /-- `NewFixedChar`, `literal/utils.go:289-291` -/
  | fixedChar (s : List UInt8)
  /-- `NewFixedBinary`, `literal/utils.go:293-295` -/
  | fixedBinary (b : List UInt8)
  /-- `NewVarChar`, `literal/utils.go:297-299` -/
  | varChar (s : List UInt8)
  /-- `NewDecimalFromTwosComplement`, `literal/utils.go:303-315` -/
  | decimal (twosComplement : List UInt8) (precision scale : Int32)
  /-- `NewPrecisionTime`, `literal/utils.go:334-339` -/
  | precisionTime (precision : Int32) (value : Int64)
  /-- `NewPrecisionTimeFromTime`, `literal/utils.go:343-347` -/
  | precisionTimeFromTime (precision : Int32) (tm : ZonedTime)
  /-- `NewPrecisionTimestamp`, `literal/utils.go:363-370` -/
  | precisionTimestamp (precision : Int32) (value : Int64)
  /-- `NewPrecisionTimestampFromTime`, `literal/utils.go:358-360` -/
  | precisionTimestampFromTime (precision : Int32) (tm : ZonedTime)
  /-- `NewPrecisionTimestampTz`, `literal/utils.go:386-393` -/
  | precisionTimestampTz (precision : Int32) (value : Int64)
  /-- `NewPrecisionTimestampTzFromTime`, `literal/utils.go:381-383` -/
  | precisionTimestampTzFromTime (precision : Int32) (tm : ZonedTime)
  /-- `NewUserDefinedLiteral`, `literal/utils.go:479-495` -/
  | userDefined (typeRef : UInt32) (structValue : List Lit) (typeParams : List TParam)

/-- `types.Date(days)`, `literal/utils.go:51`: the conversion to `int32` keeps the low 32 bits -/
def dateOfInt (days : Int64) : Int32 := days.toInt32

/-- `NewDecimalFromTwosComplement`, `literal/utils.go:303-315` -/
def newDecimalFromTwosComplement (b : List UInt8) (precision scale : Int32) (nullable : Bool) :
    Res Lit :=
  if b.length ≠ 16 then .err
  else if precision < 1 ∨ precision > 38 then .err
  else if scale < 0 ∨ scale > precision then .err
  else newLiteral (.decimal b precision scale) nullable

/-- `types.GetTimeValueByPrecision(tm, precision)` with a precision of any number,
`literal/utils.go:346,359,382` and `types/types.go:1904-1929` -/
def timeValue (tm : GoTime) (precision : Int32) : Res Int64 :=
  if precision < 0 then .panic
  else getTimeValueByPrecision tm precision.toInt.toNat >>= fun v => .ok (Int64.ofInt v)

/-- `epochTM.Add(tm.Sub(tm.Truncate(24 * time.Hour)))`, `literal/utils.go:341,345`. `Truncate`
(external) rounds down to a multiple of 24 hours since the year 1 in UTC, whatever the location. -/
def sinceMidnight (tm : ZonedTime) : GoTime := ⟨tm.instant.sec % 86400, tm.instant.nsec⟩

/-- `NewUserDefinedLiteral`, `literal/utils.go:479-495` with `StructLiteralValue.ToProto`
(`expr/literals.go:65-74`) -/
def newUserDefinedLiteral (typeRef : UInt32) (fields : List Lit) (params : List TParam)
    (nullable : Bool) : Res Lit :=
  literalsToProto fields >>= fun ms => paramsToProto params >>= fun ps =>
  newLiteral (.userDefined typeRef ps (.struct ms)) nullable

/-- The body of each constructor, `literal/utils.go:18-495` -/
def LitCall.run (c : LitCall) (nullable : Bool) : Res Lit :=
  let n := getNullability nullable
  match c with
  | .bool v => newPrimLiteral (.bool v) n
  | .int8 v => newPrimLiteral (.int8 v) n
  | .int16 v => newPrimLiteral (.int16 v) n
  | .int32 v => newPrimLiteral (.int32 v) n
  | .int64 v => newPrimLiteral (.int64 v) n
  | .float32 v => newPrimLiteral (.float32 v) n
  | .float64 v => newPrimLiteral (.float64 v) n
  | .string s => newPrimLiteral (.string s) n
  | .date d => newLiteral (.prim (.date (dateOfInt d))) nullable
  | .time h m s us =>
      newTime h.toInt m.toInt s.toInt us.toInt >>= fun v =>
      newLiteral (.prim (.time (Int64.ofInt v))) nullable
  | .timeFromMicros us =>
      newTimeFromMicros us.toInt >>= fun v => newLiteral (.prim (.time (Int64.ofInt v))) nullable
  | .timestamp tm =>
      newLiteral (.prim (.timestamp (Int64.ofInt tm.instant.unixMicro))) nullable
  | .timestampFromMicros us => newLiteral (.prim (.timestamp us)) nullable
  | .timestampTz tm =>
      newLiteral (.prim (.timestampTz (Int64.ofInt tm.instant.unixMicro))) nullable
  | .timestampTzFromMicros us => newLiteral (.prim (.timestampTz us)) nullable
  | .intervalYearsToMonth y m => newLiteral (.intervalYearToMonth y m) nullable
  | .intervalDaysToSecond d s us => newLiteral (.intervalDayToSecond ⟨d, s, .precision 6, us⟩) nullable
  | .uuid g => newLiteral (.bytes .uuid g.toList) nullable
  | .uuidFromBytes b => newLiteral (.bytes .uuid b) nullable
  | .fixedChar s => newLiteral (.prim (.fixedChar s)) nullable
  | .fixedBinary b => newLiteral (.bytes .fixedBinary b) nullable
  | .varChar s => newLiteral (.varChar s (UInt32.ofNat s.length)) nullable
  | .decimal b p s => newDecimalFromTwosComplement b p s nullable
  | .precisionTime p v => newLiteral (.precisionTime p v) nullable
  | .precisionTimeFromTime p tm =>
      timeValue (sinceMidnight tm) p >>= fun v => newLiteral (.precisionTime p v) nullable
  | .precisionTimestamp p v => newLiteral (.precisionTimestamp p v) nullable
  | .precisionTimestampFromTime p tm =>
      timeValue tm.instant p >>= fun v => newLiteral (.precisionTimestamp p v) nullable
  | .precisionTimestampTz p v => newLiteral (.precisionTimestampTz p v) nullable
  | .precisionTimestampTzFromTime p tm =>
      timeValue tm.instant p >>= fun v => newLiteral (.precisionTimestampTz p v) nullable
  | .userDefined r fs ps => newUserDefinedLiteral r fs ps nullable

/-- `ts.Hour()*3600 + ts.Minute()*60 + ts.Second()` with the nanoseconds,
`NewTimeFromString`, `literal/utils.go:86-88`, given the time that was read from the text: unlike
`sinceMidnight`, hour, minute and second are those of the location. -/
def timeOfParsed (ts : ZonedTime) (nullable : Bool) : Res Lit :=
  newTimeFromMicros ((ts.instant.sec + ts.offset) % 86400 * 1000000 + goDiv ts.instant.nsec 1000) >>=
    fun v => newLiteral (.prim (.time (Int64.ofInt v))) nullable

end Verif

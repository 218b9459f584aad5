import Verif.Model.LitCons
import Verif.Spec.Literals
import Verif.Spec.Time
import Verif.Spec.Decimal
/-! # Specification vocabulary for the constructors of package `literal` -/

namespace Verif

/-- `v` counts the whole units of precision `p` (tenths, hundredths, ... of a second) in `nanos`
nanoseconds. -/
def WholeUnits (p : Int) (nanos v : Int) : Prop :=
  ∃ unit : Int, unit = 10 ^ (9 - p).toNat ∧ v * unit ≤ nanos ∧ nanos < (v + 1) * unit

/-- Nanoseconds since midnight on the clock of the time's own location. -/
def ZonedTime.clock (tm : ZonedTime) : Int :=
  (tm.instant.sec + tm.offset) % 86400 * 1000000000 + tm.instant.nsec

/-- The `time.Time` is one: nanoseconds within the second, seconds of an `int64`. -/
def ZonedTime.Normal (tm : ZonedTime) : Prop := tm.instant.Normal ∧ IsInt64 tm.instant.sec

/-- The nanoseconds since 1970 fit an `int64` (years 1678 to 2262). -/
def ZonedTime.InNanos (tm : ZonedTime) : Prop := tm.Normal ∧ IsInt64 tm.instant.nanos

/-- What was asked for can be said with a literal of the type that the constructor is for: numbers
are within the type's range, times of day within a day, UUIDs have 16 bytes, decimals have at most
the digits their precision allows, precisions are 0 to 9. -/
def LitCall.Representable : LitCall → Prop
  | .date d => IsInt32 d.toInt
  | .time h m s us =>
      0 ≤ micros h.toInt m.toInt s.toInt us.toInt ∧
        micros h.toInt m.toInt s.toInt us.toInt < 86400000000
  | .timeFromMicros us => 0 ≤ us.toInt ∧ us.toInt < 86400000000
  | .timestamp tm | .timestampTz tm => tm.InNanos
  | .uuidFromBytes b => b.length = 16
  | .fixedChar s | .fixedBinary s | .varChar s => s.length < 2 ^ 31
  | .decimal b p s =>
      b.length = 16 ∧ 1 ≤ p.toInt ∧ p.toInt ≤ 38 ∧ 0 ≤ s.toInt ∧ s.toInt ≤ p.toInt ∧
        (signed16 b).natAbs < 10 ^ p.toInt.toNat
  | .precisionTime p v =>
      ValidPrecision p ∧ 0 ≤ v.toInt ∧ v.toInt < 86400 * 10 ^ p.toInt.toNat
  | .precisionTimestamp p _ | .precisionTimestampTz p _ => ValidPrecision p
  | .precisionTimeFromTime p tm => ValidPrecision p ∧ tm.Normal
  | .precisionTimestampFromTime p tm | .precisionTimestampTzFromTime p tm =>
      ValidPrecision p ∧ tm.InNanos
  | .userDefined _ fs ps =>
      (∃ ms, literalsToProto fs = .ok ms) ∧ TParam.PrecisionsOkList ps ∧
        ∃ qs, paramsToProto ps = .ok qs ∧ PParam.NoCompoundList qs
  | _ => True

/-- The message says what was asked for: it is of the kind the constructor is named after and holds
the very number or bytes that were given. -/
def LitCall.Says : LitCall → PLitKind → Prop
  | .bool v, .boolean w => v = w
  | .int8 v, .i8 w => w.toInt = v.toInt
  | .int16 v, .i16 w => w.toInt = v.toInt
  | .int32 v, .i32 w => v = w
  | .int64 v, .i64 w => v = w
  | .float32 v, .fp32 w => v = w
  | .float64 v, .fp64 w => v = w
  | .string s, .string t => s = t
  | .date d, .date w => w.toInt = d.toInt
  | .time h m s us, .time w => w.toInt = micros h.toInt m.toInt s.toInt us.toInt
  | .timeFromMicros us, .time w => us = w
  | .timestamp tm, .timestamp w => WholeUnits 6 tm.instant.nanos w.toInt
  | .timestampFromMicros us, .timestamp w => us = w
  | .timestampTz tm, .timestampTz w => WholeUnits 6 tm.instant.nanos w.toInt
  | .timestampTzFromMicros us, .timestampTz w => us = w
  | .intervalYearsToMonth y m, .intervalYearToMonth y' m' => y = y' ∧ m = m'
  | .intervalDaysToSecond d s us, .intervalDayToSecond w =>
      w.days = d ∧ w.seconds = s ∧ w.subseconds = us ∧ w.mode = .precision 6
  | .uuid g, .uuid b => b = g.toList
  | .uuidFromBytes b, .uuid b' => b = b'
  | .fixedChar s, .fixedChar t => s = t
  | .fixedBinary s, .fixedBinary t => s = t
  | .varChar s, .varChar t len => s = t ∧ len.toNat = s.length
  | .decimal b p s, .decimal b' p' s' => b = b' ∧ p = p' ∧ s = s'
  | .precisionTime p v, .precisionTime q w => p = q ∧ v = w
  | .precisionTimeFromTime p tm, .precisionTime q w => p = q ∧ WholeUnits p.toInt tm.clock w.toInt
  | .precisionTimestamp p v, .precisionTimestamp q w => p = q ∧ v = w
  | .precisionTimestampFromTime p tm, .precisionTimestamp q w =>
      p = q ∧ WholeUnits p.toInt tm.instant.nanos w.toInt
  | .precisionTimestampTz p v, .precisionTimestampTz q w => p = q ∧ v = w
  | .precisionTimestampTzFromTime p tm, .precisionTimestampTz q w =>
      p = q ∧ WholeUnits p.toInt tm.instant.nanos w.toInt
  | .userDefined r fs ps, .userDefined r' qs (.struct ms) =>
      r = r' ∧ literalsToProto fs = .ok ms ∧
        ∃ ps', paramsFromProto qs = .ok ps' ∧ TParam.eraseList ps' = TParam.eraseList ps
  | _, _ => False

/-- The type of the literal is the one the constructor is named after, with this nullability, no
variation, and the length, precision and scale that belong to the value. -/
def LitCall.TypedAs (n : Nullability) : LitCall → Ty → Prop
  | .bool _, t => t = .prim .boolean n 0
  | .int8 _, t => t = .prim .i8 n 0
  | .int16 _, t => t = .prim .i16 n 0
  | .int32 _, t => t = .prim .i32 n 0
  | .int64 _, t => t = .prim .i64 n 0
  | .float32 _, t => t = .prim .fp32 n 0
  | .float64 _, t => t = .prim .fp64 n 0
  | .string _, t => t = .prim .string n 0
  | .date _, t => t = .prim .date n 0
  | .time .., t | .timeFromMicros _, t => t = .prim .time n 0
  | .timestamp _, t | .timestampFromMicros _, t => t = .prim .timestamp n 0
  | .timestampTz _, t | .timestampTzFromMicros _, t => t = .prim .timestampTz n 0
  | .intervalYearsToMonth .., t => t = .prim .intervalYear n 0
  | .intervalDaysToSecond .., t => t = .prec .intervalDay n 0 6
  | .uuid _, t | .uuidFromBytes _, t => t = .prim .uuid n 0
  | .fixedChar s, t => ∃ len, t = .fixed .fixedChar n 0 len ∧ len.toInt = s.length
  | .fixedBinary s, t => ∃ len, t = .fixed .fixedBinary n 0 len ∧ len.toInt = s.length
  | .varChar s, t => ∃ len, t = .fixed .varChar n 0 len ∧ len.toInt = s.length
  | .decimal _ p s, t => t = .decimal n 0 s p
  | .precisionTime p _, t | .precisionTimeFromTime p _, t => t = .prec .precisionTime n 0 p
  | .precisionTimestamp p _, t | .precisionTimestampFromTime p _, t =>
      t = .prec .precisionTimestamp n 0 p
  | .precisionTimestampTz p _, t | .precisionTimestampTzFromTime p _, t =>
      t = .prec .precisionTimestampTz n 0 p
  | .userDefined r _ ps, t =>
      ∃ ps', t = .udt n 0 r ps' ∧ TParam.eraseList ps' = TParam.eraseList ps

/-- The literal is the one asked for: its type is right, and the message written for it is marked
nullable as asked, has no variation and says what was asked for. -/
def LitCall.Made (c : LitCall) (nullable : Bool) (l : Lit) : Prop :=
  (∃ t, l.getType = .ok t ∧ c.TypedAs (if nullable then 1 else 2) t) ∧
  ∃ k, literalToProto l = .ok (.mk nullable 0 k) ∧ c.Says k

end Verif

import Verif.Model.Decimal
/-!
# Times and intervals

Models the precision conversions of `types/types.go:1825-1929`, the constructors
`literal/utils.go:64-79`, interval text `literal/utils.go:152-186`, and
`expr/literals.go:720-772` (changing precision of time and interval literals).

External: `time.Time` is a pair of int64 seconds since 1970 and nanoseconds in [0, 10^9); the
functions `time.Unix`, `UnixMilli`, `UnixMicro` and the methods `Unix`, `UnixMilli`, `UnixMicro`,
`UnixNano` are transcribed from the Go standard library documentation, with int64 wrap-around.
`TimePrecision` is an int32 in Go; negative values behave like values above 9 (the default case).
-/

namespace Verif

/-- Go's integer division (truncates toward zero). -/
def goDiv (a b : Int) : Int := Int.tdiv a b

/-- Go's integer remainder (sign of the dividend). -/
def goMod (a b : Int) : Int := Int.tmod a b

/-- `time.Time` (external): seconds since 1970 as an int64, nanoseconds within the second. -/
structure GoTime where
  sec : Int
  nsec : Int
  deriving DecidableEq, Repr

/-- `time.Unix(sec, nsec)` (external): normalises nsec into [0, 10^9). -/
def timeUnix (sec nsec : Int) : GoTime :=
  if nsec < 0 ∨ nsec ≥ 1000000000 then
    let n := goDiv nsec 1000000000
    let sec := wrap64 (sec + n)
    let nsec := nsec - n * 1000000000
    if nsec < 0 then ⟨wrap64 (sec - 1), nsec + 1000000000⟩ else ⟨sec, nsec⟩
  else ⟨sec, nsec⟩

/-- `time.UnixMilli(ms)` (external) -/
def timeUnixMilli (ms : Int) : GoTime := timeUnix (goDiv ms 1000) (goMod ms 1000 * 1000000)

/-- `time.UnixMicro(us)` (external) -/
def timeUnixMicro (us : Int) : GoTime := timeUnix (goDiv us 1000000) (goMod us 1000000 * 1000)

/-- `Time.Unix()` (external) -/
def GoTime.unix (t : GoTime) : Int := t.sec
/-- `Time.UnixMilli()` (external) -/
def GoTime.unixMilli (t : GoTime) : Int := wrap64 (wrap64 (t.sec * 1000) + goDiv t.nsec 1000000)
/-- `Time.UnixMicro()` (external) -/
def GoTime.unixMicro (t : GoTime) : Int := wrap64 (wrap64 (t.sec * 1000000) + goDiv t.nsec 1000)
/-- `Time.UnixNano()` (external) -/
def GoTime.unixNano (t : GoTime) : Int := wrap64 (wrap64 (t.sec * 1000000000) + t.nsec)

/-- `timeFromPrecisionUnits`, `types/types.go:1825-1852` -/
def timeFromPrecisionUnits (units : Int) (precision : Nat) : Res GoTime :=
  match precision with
  | 0 => .ok (timeUnix units 0)
  | 1 => .ok (timeUnix (goDiv units 10) (goMod units 10 * 100000000))
  | 2 => .ok (timeUnix (goDiv units 100) (goMod units 100 * 10000000))
  | 3 => .ok (timeUnixMilli units)
  | 4 => .ok (timeUnix (goDiv units 10000) (goMod units 10000 * 100000))
  | 5 => .ok (timeUnix (goDiv units 100000) (goMod units 100000 * 10000))
  | 6 => .ok (timeUnixMicro units)
  | 7 => .ok (timeUnix (goDiv units 10000000) (goMod units 10000000 * 100))
  | 8 => .ok (timeUnix (goDiv units 100000000) (goMod units 100000000 * 10))
  | 9 => .ok (timeUnix (goDiv units 1000000000) (goMod units 1000000000))
  | _ => .panic

/-- `GetTimeValueByPrecision`, `types/types.go:1904-1929` -/
def getTimeValueByPrecision (tm : GoTime) (precision : Nat) : Res Int :=
  match precision with
  | 0 => .ok tm.unix
  | 1 => .ok (goDiv tm.unixMilli 100)
  | 2 => .ok (goDiv tm.unixMilli 10)
  | 3 => .ok tm.unixMilli
  | 4 => .ok (goDiv tm.unixMicro 100)
  | 5 => .ok (goDiv tm.unixMicro 10)
  | 6 => .ok tm.unixMicro
  | 7 => .ok (goDiv tm.unixNano 100)
  | 8 => .ok (goDiv tm.unixNano 10)
  | 9 => .ok tm.unixNano
  | _ => .panic

/-- The value computed by `newPrecisionTimeWithType`, `newPrecisionTimestampWithType`,
`newPrecisionTimestampTzWithType` (`expr/literals.go:723-745`) when the literal has the matching
type with precision `p` and the new type has precision `q`. -/
def changeTimePrecision (value : Int) (p q : Nat) : Res Int :=
  timeFromPrecisionUnits value p >>= fun t => getTimeValueByPrecision t q

/-- `NewTime`, `literal/utils.go:64-71`: int64 nanosecond arithmetic with wrap-around, returning the
microseconds stored in the literal (`NewLiteral` of a `types.Time` cannot fail). -/
def newTime (hours minutes seconds microseconds : Int) : Res Int :=
  let duration :=
    wrap64 (wrap64 (wrap64 (wrap64 (hours * 3600000000000) + wrap64 (minutes * 60000000000))
      + wrap64 (seconds * 1000000000)) + wrap64 (microseconds * 1000))
  let micros := goDiv duration 1000
  if micros < 0 ∨ micros ≥ 86400000000 then .err else .ok micros

/-- `NewTimeFromMicros`, `literal/utils.go:74-79` -/
def newTimeFromMicros (micros : Int) : Res Int :=
  if micros < 0 ∨ micros ≥ 86400000000 then .err else .ok micros

/-! ## Year-month interval text -/

/-- A Go string as its bytes. -/
abbrev Bytes := List UInt8

/-- `strconv.Atoi` on the digits after the sign (external): all bytes decimal digits. -/
def atoiDigits (acc : Nat) : Bytes → Option Nat
  | [] => some acc
  | b :: bs => if 48 ≤ b.toNat ∧ b.toNat ≤ 57 then atoiDigits (acc * 10 + (b.toNat - 48)) bs else none

/-- `strconv.Atoi` (external) on a 64-bit platform: optional sign, at least one digit, value within
int64; otherwise an error. -/
def atoi (s : Bytes) : Res Int :=
  let (neg, ds) := match s with
    | 45 :: ds => (true, ds)   -- '-'
    | 43 :: ds => (false, ds)  -- '+'
    | ds => (false, ds)
  if ds = [] then .err
  else match atoiDigits 0 ds with
    | none => .err
    | some n =>
        let v : Int := if neg then -(n : Int) else n
        if v < -9223372036854775808 ∨ v > 9223372036854775807 then .err else .ok v

/-- The index loop of `parseIntervalYearsToMonth`, `literal/utils.go:157-165`: the last position of
a byte, or -1. (Go ranges over runes; ASCII bytes are always visited at their byte offset.) -/
def lastIndex (b : UInt8) : Bytes → Int
  | [] => -1
  | c :: cs =>
      let r := lastIndex b cs
      if r ≠ -1 then r + 1 else if c = b then 0 else -1

/-- `parseIntervalYearsToMonth`, `literal/utils.go:152-186`. The slice expressions are always in
range because the indices come from the same string. -/
def parseIntervalYearsToMonth (interval : Bytes) : Res (Int × Int) :=
  match interval with
  | 80 :: rest =>  -- 'P'
    if interval.length < 3 then .err
    else
      let yIndex := lastIndex 89 rest  -- 'Y'
      let mIndex := lastIndex 77 rest  -- 'M'
      if yIndex = -1 ∧ mIndex = -1 then .err
      else
        (if yIndex ≠ -1 then
          atoi (rest.take yIndex.toNat) >>= fun years =>
            .ok (years, rest.drop (yIndex + 1).toNat, mIndex - (yIndex + 1))
        else .ok (0, rest, mIndex)) >>= fun (years, rest, mIndex) =>
        (if mIndex > 0 then atoi (rest.take mIndex.toNat) else .ok 0) >>= fun months =>
        .ok (wrap32 years, wrap32 months)
  | _ => .err

/-- Decimal digits of a natural number, most significant first (`%d`, external). -/
def natText (n : Nat) : Bytes :=
  if n < 10 then [UInt8.ofNat (48 + n)] else natText (n / 10) ++ [UInt8.ofNat (48 + n % 10)]
termination_by n
decreasing_by omega

/-- `fmt.Sprintf("%d", i)` (external) -/
def intText (i : Int) : Bytes := if i < 0 then 45 :: natText i.natAbs else natText i.natAbs

/-- `fmt.Sprintf("P%dY%dM", years, months)`, `expr/literals.go:567` (`IsoValueString` of an
interval_year literal) -/
def intervalYearIso (years months : Int) : Bytes :=
  80 :: (intText years ++ 89 :: (intText months ++ [77]))

/-! ## Day-time interval precision -/

/-- The fields of `Expression_Literal_IntervalDayToSecond` with its precision. -/
structure IntervalDay where
  days : Int
  seconds : Int
  subseconds : Int
  precision : Nat
  deriving DecidableEq, Repr

/-- `newIntervalDayWithType`, `expr/literals.go:747-772`, when the literal has an interval_day type.
Precisions are at most 9, where `math.Pow10` is exact. -/
def intervalDayWithPrecision (v : IntervalDay) (q : Nat) : IntervalDay :=
  let diff : Int := (v.precision : Int) - q
  let factor : Int := 10 ^ diff.natAbs
  let ss :=
    if diff ≠ 0 then
      (if diff > 0 then goDiv v.subseconds factor else wrap64 (v.subseconds * factor))
    else v.subseconds
  { days := v.days, seconds := v.seconds, subseconds := ss, precision := q }

end Verif

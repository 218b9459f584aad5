import Verif.Model.Float64
import Verif.Model.Time
/-!
# Text of day-time intervals

Models `literal/utils.go:207-264`.
-/

namespace Verif

/-- `\d` of a regular expression (external, `literal/utils.go:214`) -/
def isDigit (b : UInt8) : Bool := decide (48 ≤ b.toNat ∧ b.toNat ≤ 57)

/-- `(?:(\d+)U)?` of the regular expression `literal/utils.go:214` for a letter `U`: the group and what follows.
After the digits there is no other way to match, so there is nothing to try again. -/
def optUnit (unit : UInt8) (s : Bytes) : Bytes × Bytes :=
  match s.dropWhile isDigit with
  | c :: rest => if s.takeWhile isDigit ≠ [] ∧ c = unit then (s.takeWhile isDigit, rest) else ([], s)
  | [] => ([], s)

/-- The groups 1 to 4 of the regular expression, `literal/utils.go:214-251`; group 4 as the digits before
and, if there is a point, the digits after it. -/
structure DayGroups where
  days : Bytes
  hours : Bytes
  minutes : Bytes
  whole : Bytes
  frac : Option Bytes
  deriving DecidableEq

/-- `(?:(\d*(\.\d+)?)S)?$` of the regular expression, `literal/utils.go:214` -/
def secondsGroup (s : Bytes) : Option (Bytes × Option Bytes) :=
  if s = [] then some ([], none)
  else
    match s.dropWhile isDigit with
    | [83] => some (s.takeWhile isDigit, none)  -- 'S'
    | 46 :: rest =>  -- '.'
        if rest.takeWhile isDigit ≠ [] ∧ rest.dropWhile isDigit = [83] then
          some (s.takeWhile isDigit, some (rest.takeWhile isDigit))
        else none
    | _ => none

/-- `r.FindStringSubmatch(interval)`, `literal/utils.go:214-218` -/
def dayRegexp (s : Bytes) : Option DayGroups :=
  match s with
  | 80 :: s =>  -- 'P'
      let (d, s) := optUnit 68 s  -- 'D'
      match s with
      | [] => some ⟨d, [], [], [], none⟩
      | 84 :: s =>  -- 'T'
          let (h, s) := optUnit 72 s  -- 'H'
          let (m, s) := optUnit 77 s  -- 'M'
          (secondsGroup s).map fun p => ⟨d, h, m, p.1, p.2⟩
      | _ => none
  | _ => none

/-- `if matches[i] != "" { x, err = strconv.Atoi(matches[i]) }`, `literal/utils.go:228-245` -/
def atoiGroup (s : Bytes) : Res Int := if s = [] then .ok 0 else atoi s

/-- the number that digits stand for (external: decimal notation, `literal/utils.go:247`) -/
def digitsNat (s : Bytes) : Nat := s.foldl (fun n b => n * 10 + (b.toNat - 48)) 0

/-- the number before rounding in `strconv.ParseFloat` (external, `literal/utils.go:247`) -/
def decimalValue (whole : Bytes) (frac : Option Bytes) : ℚ :=
  digitsNat whole + match frac with
    | none => 0
    | some f => digitsNat f / 10 ^ f.length

/-- `strconv.ParseFloat(s, 64)` of a decimal number (external, `literal/utils.go:246-251`): the nearest double
precision number, or an error if that is infinite; 0 if there is nothing to parse. -/
def parseFloatGroup (whole : Bytes) (frac : Option Bytes) : Res ℚ :=
  if whole = [] ∧ frac = none then .ok 0
  else if f64 (decimalValue whole frac) < 2 ^ 1024 then .ok (f64 (decimalValue whole frac)) else .err

/-- `literal/utils.go:253-257`: whole seconds, nanoseconds and microseconds of a number of seconds. Conversion of a
number of `2^63` or more to int depends on the processor: `big`. -/
def splitSeconds (big : ℚ → Int × Int × Int) (x : ℚ) : Int × Int × Int :=
  if x < 2 ^ 63 then
    let y := f64 (x - f64 ⌊x⌋)
    (⌊x⌋, ⌊f64 (y * 1000000000)⌋, ⌊f64 (y * 1000000)⌋)
  else big x

/-- `parseIntervalDaysToSecond`, `literal/utils.go:207-264`; `int` has 64 bits. -/
def parseIntervalDaysToSecond (big : ℚ → Int × Int × Int) (interval : Bytes) : Res IntervalDay :=
  if interval.length < 3 then .err
  else
    match dayRegexp interval with
    | none => .err
    | some g =>
        atoiGroup g.days >>= fun days =>
        atoiGroup g.hours >>= fun hours =>
        atoiGroup g.minutes >>= fun minutes =>
        parseFloatGroup g.whole g.frac >>= fun x =>
        let (secs, nanos, micros) := splitSeconds big x
        let seconds := wrap64 (secs + wrap64 (wrap64 (hours * 3600) + wrap64 (minutes * 60)))
        if nanos > wrap64 (micros * 1000) then .ok ⟨wrap32 days, wrap32 seconds, nanos, 9⟩
        else .ok ⟨wrap32 days, wrap32 seconds, micros, 6⟩

end Verif

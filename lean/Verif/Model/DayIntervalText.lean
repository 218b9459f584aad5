import Verif.Model.DayInterval
/-!
# Printing day-time intervals

Models the case of `*types.IntervalDayType` of `IsoValueString`, `expr/literals.go:568-582`, and
`types/precison_timestamp_types.go:35-60`. `time.Duration.String` and `strings.ToUpper` are external.
-/

namespace Verif

/-- `SubSecondsToDuration`, `types/precison_timestamp_types.go:35-60`, in nanoseconds; panics if the precision is not
one of 0 to 9. -/
def subSecondsToDuration (subSeconds : Int) (precision : Nat) : Res Int :=
  match precision with
  | 0 => .ok (wrap64 (subSeconds * 1000000000))
  | 1 => .ok (goDiv (wrap64 (subSeconds * 1000000000)) 10)
  | 2 => .ok (goDiv (wrap64 (subSeconds * 1000000000)) 100)
  | 3 => .ok (wrap64 (subSeconds * 1000000))
  | 4 => .ok (wrap64 (wrap64 (subSeconds * 100) * 1000))
  | 5 => .ok (wrap64 (wrap64 (subSeconds * 10) * 1000))
  | 6 => .ok (wrap64 (subSeconds * 1000))
  | 7 => .ok (wrap64 (subSeconds * 100))
  | 8 => .ok (wrap64 (subSeconds * 10))
  | 9 => .ok (wrap64 subSeconds)
  | _ => .panic

/-- The loop of `fmtFrac` of Go's `time` (external, called at `expr/literals.go:580`): takes `prec` digits from the
end of `v`, without trailing zeros. `buf` is what is printed already, `print` whether a digit that is not 0 was seen. -/
def fmtFracLoop : Nat → Nat → Bool → Bytes → Bytes × Nat × Bool
  | 0, v, print, buf => (buf, v, print)
  | prec + 1, v, print, buf =>
      if print || v % 10 ≠ 0 then fmtFracLoop prec (v / 10) true (UInt8.ofNat (48 + v % 10) :: buf)
      else fmtFracLoop prec (v / 10) false buf

/-- `fmtFrac` of Go's `time` (external, called at `expr/literals.go:580`): the fraction `v / 10^prec` with its point
before `buf`, and the whole number -/
def fmtFrac (buf : Bytes) (v prec : Nat) : Bytes × Nat :=
  match fmtFracLoop prec v false buf with
  | (buf, v, print) => (if print then 46 :: buf else buf, v)

/-- `time.Duration.String` (external, called at `expr/literals.go:580`) of a number of nanoseconds -/
def durationString (d : Int) : Bytes :=
  let u := d.natAbs
  let text :=
    if u < 1000000000 then
      if u = 0 then [48, 115]  -- "0s"
      else if u < 1000 then
        let (b, v) := fmtFrac [110, 115] u 0  -- "ns"
        natText v ++ b
      else if u < 1000000 then
        let (b, v) := fmtFrac [194, 181, 115] u 3  -- "µs"
        natText v ++ b
      else
        let (b, v) := fmtFrac [109, 115] u 6  -- "ms"
        natText v ++ b
    else
      let (b, v) := fmtFrac [115] u 9  -- "s"
      let b := natText (v % 60) ++ b
      let v := v / 60
      if v > 0 then
        let b := natText (v % 60) ++ 109 :: b  -- "m"
        let v := v / 60
        if v > 0 then natText v ++ 104 :: b else b  -- "h"
      else b
  if d < 0 then 45 :: text else text

/-- `strings.ToUpper` (external, called at `expr/literals.go:580`) of ASCII and the micro sign, whose capital letter
is the Greek Mu -/
def toUpper : Bytes → Bytes
  | 194 :: 181 :: r => 206 :: 156 :: toUpper r
  | b :: r => (if 97 ≤ b.toNat ∧ b.toNat ≤ 122 then b - 32 else b) :: toUpper r
  | [] => []

/-- `IsoValueString` of an interval_day literal, `expr/literals.go:568-582`. The precision is that of the literal's
type. -/
def intervalDayIso (v : IntervalDay) : Res Bytes :=
  let days := if v.days > 0 then intText v.days ++ [68] else []
  if v.seconds > 0 ∨ v.subseconds > 0 then
    subSecondsToDuration v.subseconds v.precision >>= fun sub =>
    let duration := wrap64 (wrap64 (v.seconds * 1000000000) + sub)
    .ok (80 :: (days ++ 84 :: toUpper (durationString duration)))
  else .ok (80 :: days)

end Verif

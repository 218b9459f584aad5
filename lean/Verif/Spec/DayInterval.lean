import Mathlib.Data.Nat.Digits.Defs
import Mathlib.Data.Rat.Defs
import Verif.Spec.Time
/-! # Specification vocabulary for the text of day-time intervals -/

namespace Verif

/-- a text of decimal digits -/
def Digits (s : Bytes) : Prop := ∀ b ∈ s, 48 ≤ b.toNat ∧ b.toNat ≤ 57

/-- the number a text of decimal digits stands for -/
def decimal (s : Bytes) : Nat := Nat.ofDigits 10 (s.reverse.map fun b => b.toNat - 48)

/-- the number an optional text of digits stands for: 0 if there is none -/
def decimalOpt : Option Bytes → Nat
  | none => 0
  | some s => decimal s

/-- The parts of an ISO 8601 duration of days, hours, minutes and seconds. -/
structure DayParts where
  days : Option Bytes
  /-- is there a `T` -/
  time : Bool
  hours : Option Bytes
  minutes : Option Bytes
  /-- digits before the point, and digits after it if there is a point -/
  seconds : Option (Bytes × Option Bytes)

/-- digits with the letter of their unit -/
def unitText (unit : UInt8) : Option Bytes → Bytes
  | none => []
  | some s => s ++ [unit]

/-- `1S` or `1.5S` -/
def secondsText : Option (Bytes × Option Bytes) → Bytes
  | none => []
  | some (w, none) => w ++ [83]
  | some (w, some f) => w ++ 46 :: f ++ [83]

/-- `P1DT2H3M4.5S` -/
def DayParts.text (p : DayParts) : Bytes :=
  80 :: (unitText 68 p.days ++
    if p.time then 84 :: (unitText 72 p.hours ++ unitText 77 p.minutes ++ secondsText p.seconds) else [])

/-- a number with at least one digit -/
def IsNumber (s : Bytes) : Prop := s ≠ [] ∧ Digits s

/-- all parts are numbers; parts of the time are only after a `T`. The digits before a point may be missing. -/
structure DayParts.Wf (p : DayParts) : Prop where
  days : ∀ s, p.days = some s → IsNumber s
  hours : ∀ s, p.hours = some s → IsNumber s
  minutes : ∀ s, p.minutes = some s → IsNumber s
  whole : ∀ w f, p.seconds = some (w, f) → Digits w
  frac : ∀ w f, p.seconds = some (w, some f) → IsNumber f
  time : p.time = false → p.hours = none ∧ p.minutes = none ∧ p.seconds = none

/-- there is at least one part -/
def DayParts.Some (p : DayParts) : Prop :=
  p.days ≠ none ∨ p.hours ≠ none ∨ p.minutes ≠ none ∨ p.seconds ≠ none

/-- the whole number of the seconds of the text -/
def DayParts.whole (p : DayParts) : Nat :=
  match p.seconds with
  | none => 0
  | some (w, _) => decimal w

/-- the digits after the point -/
def DayParts.fracDigits (p : DayParts) : Bytes :=
  match p.seconds with
  | some (_, some f) => f
  | _ => []

/-- hours, minutes and whole seconds as seconds -/
def DayParts.wholeSeconds (p : DayParts) : Nat :=
  decimalOpt p.hours * 3600 + decimalOpt p.minutes * 60 + p.whole

/-- the part of a second after the point, in seconds -/
def DayParts.frac (p : DayParts) : ℚ := (decimal p.fracDigits : ℚ) / 10 ^ p.fracDigits.length

/-- the part of a second of an interval, in nanoseconds -/
def IntervalDay.fracNanos (v : IntervalDay) : Int := v.subseconds * 10 ^ (9 - v.precision)

/-- the seconds of an interval, in nanoseconds -/
def IntervalDay.nanos (v : IntervalDay) : Int := v.seconds * 1000000000 + v.fracNanos

/-- no part is negative, the part of a second is less than a second, and all fit into their fields -/
structure IntervalDay.Proper (v : IntervalDay) : Prop where
  precision : v.precision ≤ 9
  days : 0 ≤ v.days ∧ v.days < 2 ^ 31
  seconds : 0 ≤ v.seconds ∧ v.seconds < 2 ^ 31
  subseconds : 0 ≤ v.subseconds ∧ v.subseconds < 10 ^ v.precision

end Verif

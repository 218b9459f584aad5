import Verif.Model.Time
/-! # Specification vocabulary for times and intervals -/

namespace Verif

/-- A Go `int64`. -/
def IsInt64 (x : Int) : Prop := -9223372036854775808 ≤ x ∧ x ≤ 9223372036854775807

/-- A Go `int32`. -/
def IsInt32 (x : Int) : Prop := -2147483648 ≤ x ∧ x ≤ 2147483647

/-- Nanoseconds since 1970 of a time. -/
def GoTime.nanos (t : GoTime) : Int := t.sec * 1000000000 + t.nsec

/-- The nanoseconds within the second are normalised. -/
def GoTime.Normal (t : GoTime) : Prop := 0 ≤ t.nsec ∧ t.nsec < 1000000000

/-- Precision of the next SI unit at least as fine as `p` (seconds, milli-, micro-, nanoseconds). -/
def siPrecision (p : Nat) : Nat := (p + 2) / 3 * 3

/-- The duration described by hours, minutes, seconds and microseconds, in microseconds. -/
def micros (h m s us : Int) : Int := h * 3600000000 + m * 60000000 + s * 1000000 + us

end Verif

import Verif.Model.Literals
import Verif.Spec.Decimal
import Verif.Spec.Time
/-!
# Specification vocabulary: what a literal stands for

The value of a literal apart from how its type writes it down, and when a value belongs to a type.
-/

namespace Verif

/-- The values of the literals whose type can be changed. -/
inductive LitValue where
  /-- characters of a fixed-length or variable-length character value -/
  | chars (s : List UInt8)
  /-- bytes of a binary value -/
  | octets (b : List UInt8)
  /-- a decimal number -/
  | number (q : ℚ)
  /-- time of day or instant, in nanoseconds -/
  | nanos (n : ℤ)
  /-- days, seconds and nanoseconds of an interval -/
  | interval (days seconds nanos : ℤ)
  /-- the elements of a list -/
  | elements (vs : List Lit)
  /-- the fields of a struct -/
  | fields (vs : List Lit)

/-- The precision of the sub-second count of an interval: microseconds, or as given. -/
def DaySecond.nanos (d : DaySecond) : ℤ :=
  match d.mode with
  | .unset => d.subseconds.toInt * 10 ^ 9
  | .microseconds m => m.toInt * 10 ^ 3
  | .precision p => d.subseconds.toInt * 10 ^ (9 - p.toInt.toNat)

/-- What a literal stands for; `none` for literals that are not looked at here. -/
def Lit.value : Lit → Option LitValue
  | .prim (.fixedChar s) (.fixed .fixedChar ..) => some (.chars s)
  | .bytes _ b _ => some (.octets b)
  | .list vs (.list ..) => some (.elements vs)
  | .struct vs (.struct ..) => some (.fields vs)
  | .proto (.string s) (.fixed .varChar ..) => some (.chars s)
  | .proto (.bytes b) (.decimal _ _ scale _) => some (.number (bytesValue b scale.toInt))
  | .proto (.int64 i) (.prec .intervalDay ..) => none
  | .proto (.int64 i) (.prec _ _ _ p) => some (.nanos (i.toInt * 10 ^ (9 - p.toInt.toNat)))
  | .proto (.intervalDayToSecond d) (.prec .intervalDay ..) =>
      some (.interval d.days.toInt d.seconds.toInt d.nanos)
  | _ => none

/-- A value belongs to a type: fixed lengths are exact, variable lengths are at most the declared
one, decimals have at most the declared digits, list elements have the element type. -/
def LitValue.Fits : LitValue → Ty → Prop
  | .chars s, .fixed .fixedChar _ _ len => (s.length : ℤ) = len.toInt
  | .chars s, .fixed .varChar _ _ len => (s.length : ℤ) ≤ len.toInt
  | .octets b, .fixed .fixedBinary _ _ len => (b.length : ℤ) = len.toInt
  | .octets b, .prim .uuid _ _ => b.length = 16
  | .number q, .decimal _ _ scale precision =>
      ∃ n : ℤ, n.natAbs < 10 ^ precision.toInt.toNat ∧ q = n / (10 : ℚ) ^ scale.toInt
  | .nanos n, .prec _ _ _ p => (10 ^ (9 - p.toInt.toNat) : ℤ) ∣ n
  | .interval _ _ n, .prec .intervalDay _ _ p => (10 ^ (9 - p.toInt.toNat) : ℤ) ∣ n
  | .elements vs, .list _ _ t => ∀ v ∈ vs, v.getType = .ok t
  | _, _ => False

/-- The numbers involved are in the range of what Go computes with: decimals have 16 bytes and a scale
within `apd`'s limits, precisions are between 0 and 9, and a count of the next SI unit (time) or of the
finer unit (interval) fits `int64`; intervals do not use the deprecated microseconds field. -/
def Lit.InRange : Lit → Ty → Prop
  | .proto (.bytes b) (.decimal _ _ s _), _ => b.length = 16 ∧ -100000 ≤ s.toInt ∧ s.toInt ≤ 100000
  | .proto (.int64 i) (.prec _ _ _ p), .prec _ _ _ q =>
      (0 ≤ p.toInt ∧ p.toInt ≤ 9) ∧ (0 ≤ q.toInt ∧ q.toInt ≤ 9) ∧
      IsInt64 (i.toInt * 10 ^ (siPrecision q.toInt.toNat - p.toInt.toNat))
  | .proto (.intervalDayToSecond d) _, .prec _ _ _ q =>
      (∀ m, d.mode ≠ .microseconds m) ∧ (0 ≤ d.getPrecision.toInt ∧ d.getPrecision.toInt ≤ 9) ∧
      (0 ≤ q.toInt ∧ q.toInt ≤ 9) ∧
      IsInt64 (d.subseconds.toInt * 10 ^ (q.toInt.toNat - d.getPrecision.toInt.toNat))
  | _, _ => True

/-- The type apart from what a decimal literal does not keep of it: the variation, and whether the
nullability was left unspecified. -/
def Ty.ofLiteral : Ty → Ty
  | .decimal n _ s p => .decimal (if n = NullabilityNullable then n else NullabilityRequired) 0 s p
  | t => t

/-- The literal is of the kind of the type: characters of fixed or variable length, bytes, lists,
decimals, times, intervals. -/
def Lit.OfKind : Lit → Ty → Prop
  | .prim (.fixedChar _) _, .fixed .fixedChar .. => True
  | .bytes .., .fixed .fixedBinary .. => True
  | .bytes .., .prim .uuid .. => True
  | .list .., .list .. => True
  | .proto (.string _) (.fixed .varChar ..), .fixed .varChar .. => True
  | .proto (.bytes b) (.decimal ..), .decimal _ _ s p =>
      0 ≤ s.toInt ∧ s.toInt ≤ p.toInt ∧ p.toInt ≤ 38 ∧ (signed16 b ≠ 0 ∨ s.toInt < p.toInt)
  | .proto (.int64 _) (.prec k ..), .prec k' .. => k = k' ∧ k ≠ .intervalDay
  | .proto (.intervalDayToSecond _) (.prec .intervalDay ..), .prec .intervalDay .. => True
  | _, _ => False

end Verif

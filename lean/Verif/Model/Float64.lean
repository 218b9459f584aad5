import Mathlib.Data.Int.Log
import Mathlib.Algebra.Order.Archimedean.Basic
import Mathlib.Data.Rat.Floor
import Verif.Model.Go
/-!
# Go's float64

External: non-negative IEEE 754 double precision numbers as the rational numbers they stand for, with rounding to
nearest, ties to even. Used by the model of `literal/utils.go:247-257`.
-/

namespace Verif

/-- the nearest integer, of two the even one (external: rounding mode of IEEE 754, used at
`literal/utils.go:247-257`) -/
def roundEven (x : ℚ) : ℤ :=
  if x - ⌊x⌋ < 1 / 2 then ⌊x⌋
  else if 1 / 2 < x - ⌊x⌋ then ⌊x⌋ + 1
  else if ⌊x⌋ % 2 = 0 then ⌊x⌋ else ⌊x⌋ + 1

/-- the exponent of the spacing of the double precision numbers around `x`: 53 significant bits, at least
`2^-1074` (external, used at `literal/utils.go:247-257`) -/
def f64Exp (x : ℚ) : ℤ := max (Int.log 2 x - 52) (-1074)

/-- the nearest double precision number, not limited above: results from `2^1024` on are infinite (external, used
at `literal/utils.go:247-257`) -/
def f64 (x : ℚ) : ℚ := roundEven (x / 2 ^ f64Exp x) * 2 ^ f64Exp x

end Verif

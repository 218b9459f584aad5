import Verif.Model.Decimal
import Mathlib.Algebra.Order.Field.Basic
import Mathlib.Data.Rat.Cast.Defs
/-! # Specification vocabulary for decimals -/

namespace Verif

/-- Unsigned value of bytes, least significant byte first. -/
def leValue : List UInt8 → Nat
  | [] => 0
  | b :: bs => b.toNat + 256 * leValue bs

/-- The 128-bit two's-complement integer denoted by 16 little-endian bytes. -/
def signed16 (bs : List UInt8) : Int :=
  if leValue bs < 2 ^ 127 then leValue bs else (leValue bs : Int) - 2 ^ 128

/-- The number denoted by a decimal. -/
def Dec.value (d : Dec) : ℚ := (if d.neg then -1 else 1) * (d.coeff : ℚ) * (10 : ℚ) ^ d.exp

/-- The number denoted by decimal bytes with a scale. -/
def bytesValue (bs : List UInt8) (scale : Int) : ℚ := (signed16 bs : ℚ) / (10 : ℚ) ^ scale

/-- Decimals within `apd`'s limits: exponent magnitude at most 100000 (`apd.MaxExponent`), and fewer
than a thousand million digits (so that digit counts fit `int32`). -/
def Dec.InRange (d : Dec) : Prop :=
  -100000 ≤ d.exp ∧ d.exp ≤ 100000 ∧ numDigits d.coeff ≤ 1000000000

/-- The number can be written out in plain notation (at least one digit before the point, a zero
keeping its exponent's zeros) with at most 38 digits. -/
def Dec.Fits38 (d : Dec) : Prop :=
  -d.exp ≤ 37 ∧ (if d.coeff = 0 then d.exp ≤ 37 else d.coeff * 10 ^ d.exp.toNat < 10 ^ 38)

end Verif

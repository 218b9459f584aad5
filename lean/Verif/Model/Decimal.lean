import Verif.Model.Go
/-!
# Decimal literals

Models `expr/decimal_util.go`. External: `apd.Decimal` is sign, natural-number coefficient and
exponent; `apd.NumDigits` counts decimal digits (1 for zero); `big.Int.Bytes`/`SetBytes` are minimal
big-endian bytes; `Decimal.Reduce` strips trailing zeros (zero becomes `0E0`); `Context.Quantize`
to a smaller exponent multiplies the coefficient, and fails if the result has more digits than the
context precision.
-/

namespace Verif

/-- Reduction of an integer to Go's `int32` range (two's-complement wrap-around). -/
def wrap32 (x : Int) : Int := Int.bmod x (2 ^ 32)

/-- Reduction of an integer to Go's `int64` range (two's-complement wrap-around). -/
def wrap64 (x : Int) : Int := Int.bmod x (2 ^ 64)

/-- A finite `apd.Decimal`: value `± coeff * 10^exp`. -/
structure Dec where
  neg : Bool
  coeff : Nat
  exp : Int

/-- `apd.NumDigits` (external) -/
def numDigits (n : Nat) : Nat := if n < 10 then 1 else numDigits (n / 10) + 1
termination_by n
decreasing_by omega

/-- `BigInt.Bytes()` (external): minimal big-endian bytes. -/
def natBytesBE (n : Nat) : List UInt8 :=
  if n = 0 then [] else natBytesBE (n / 256) ++ [UInt8.ofNat (n % 256)]
termination_by n
decreasing_by omega

/-- `big.Int.SetBytes` (external): unsigned big-endian value. -/
def natOfBytesBE (bs : List UInt8) : Nat := bs.foldl (fun acc b => acc * 256 + b.toNat) 0

/-- The carry loop of `negate`, `expr/decimal_util.go:88-94`, on the bytes from the last to the
first: add one, stop unless the byte became zero. -/
def addOneFromEnd : List UInt8 → List UInt8
  | [] => []
  | b :: bs => if b + 1 ≠ 0 then (b + 1) :: bs else (b + 1) :: addOneFromEnd bs

/-- `negate`, `expr/decimal_util.go:84-95`, on big-endian bytes. -/
def negateBE (bs : List UInt8) : List UInt8 :=
  (addOneFromEnd (bs.map (fun b => ~~~ b)).reverse).reverse

/-- `copy(result[16-len(byteArray):], byteArray)` into a zeroed `[16]byte`,
`expr/decimal_util.go:68,160`; only reached when `len(byteArray) <= 16`. -/
def pad16 (bs : List UInt8) : List UInt8 := List.replicate (16 - bs.length) 0 ++ bs

/-- Precision and scale computed by `DecimalToBytes`, `expr/decimal_util.go:46-52`
(int32 arithmetic). -/
def decPrecisionScale (d : Dec) : Int × Int :=
  if d.exp > 0 then
    (wrap32 (wrap32 (numDigits d.coeff) + d.exp), 0)
  else
    let scale := wrap32 (-d.exp)
    (max (wrap32 (numDigits d.coeff)) (wrap32 (scale + 1)), scale)

/-- `DecimalToBytes`, `expr/decimal_util.go:39-81`: little-endian bytes, precision, scale. -/
def decimalToBytes (d : Dec) : Res (List UInt8 × Int × Int) :=
  let (precision, scale) := decPrecisionScale d
  if precision > 38 then .err
  else
    let coefficient := if d.exp > 0 then d.coeff * 10 ^ d.exp.toNat else d.coeff
    let byteArray := natBytesBE coefficient
    if byteArray.length > 16 then .err
    else
      let result := pad16 byteArray
      let result := if d.neg then negateBE result else result
      .ok (result.reverse, precision, scale)

/-- `decimalBytes[15]&0x80 != 0`, `expr/decimal_util.go:98,124` -/
def isNegativeLE (bs : List UInt8) : Bool := (bs.getD 15 0) &&& 0x80 ≠ 0

/-- The magnitude computed from little-endian bytes, `expr/decimal_util.go:101-110,126-136`. -/
def magnitudeLE (bs : List UInt8) : Nat :=
  let be := bs.reverse
  natOfBytesBE (if isNegativeLE bs then negateBE be else be)

/-- The decimal printed by `decimalBytesToString`, `expr/decimal_util.go:97-116` (rendering of the
resulting `apd.Decimal` is external). -/
def decimalBytesToDec (bs : List UInt8) (scale : Int) : Dec :=
  { neg := isNegativeLE bs, coeff := magnitudeLE bs, exp := wrap32 (-scale) }

/-- `Decimal.Reduce` (external) on a non-negative decimal: `(coeff, exp)`. -/
def reduceDec (c : Nat) (e : Int) : Nat × Int :=
  if c = 0 then (0, 0)
  else if c % 10 = 0 then reduceDec (c / 10) (e + 1)
  else (c, e)
termination_by c
decreasing_by omega

/-- `getMinimumPrecisionAndScale`, `expr/decimal_util.go:190-199` -/
def minPrecisionScale (c : Nat) (e : Int) : Int × Int :=
  if e > 0 then
    (wrap32 (wrap32 (numDigits c) + e), 0)
  else
    let scale := wrap32 (-e)
    (max (wrap32 (numDigits c)) scale, scale)

/-- `validatePrecisionAndScale`, `expr/decimal_util.go:175-188`: true when no error. -/
def validatePrecisionScale (c : Nat) (e tp ts : Int) : Bool :=
  let (minP, minS) := minPrecisionScale c e
  if ts < minS then false
  else if tp < minP then false
  else if wrap32 (tp - ts) < wrap32 (minP - minS) then false
  else true

/-- `ctx.Quantize(dec, dec, -targetScale)` (external) when the exponent is not below the target:
the new coefficient, or an error when it has more than `tp` digits. -/
def quantizeUp (c : Nat) (e tp ts : Int) : Res Nat :=
  let c' := c * 10 ^ (e + ts).toNat
  if (numDigits c' : Int) > tp then .err else .ok c'

/-- `modifyDecimalPrecisionAndScale`, `expr/decimal_util.go:118-173`. After the validation the
exponent is at least `-ts`, so `quantizeUp` covers the call to `Quantize`. -/
def modifyDecimal (bs : List UInt8) (scale tp ts : Int) : Res (List UInt8 × Int × Int) :=
  if tp > 38 then .err
  else
    let (c, e) := reduceDec (magnitudeLE bs) (wrap32 (-scale))
    if !validatePrecisionScale c e tp ts then .err
    else
      quantizeUp c e tp ts >>= fun c' =>
        let byteArray := natBytesBE c'
        if byteArray.length > 16 then .err
        else
          let result := pad16 byteArray
          let result := if isNegativeLE bs then negateBE result else result
          .ok (result.reverse, tp, ts)

end Verif

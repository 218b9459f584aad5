import Verif.Spec.DayInterval
/-!
# Texts of dates, times and strings in function test files
-/

namespace Verif

/-- `n` decimal digits -/
def DigitsOf (n : Nat) (s : Bytes) : Prop := Digits s ∧ s.length = n

/-- `YYYY-MM-DD` -/
def DateText (s : Bytes) : Prop :=
  ∃ y m d, DigitsOf 4 y ∧ DigitsOf 2 m ∧ DigitsOf 2 d ∧ s = y ++ 45 :: (m ++ 45 :: d)

/-- `HH:MM:SS`, then possibly a point and digits -/
def TimeText (s : Bytes) : Prop :=
  ∃ h m c f, DigitsOf 2 h ∧ DigitsOf 2 m ∧ DigitsOf 2 c ∧ (f = [] ∨ ∃ g, Digits g ∧ g ≠ [] ∧ f = 46 :: g) ∧
    s = h ++ 58 :: (m ++ 58 :: (c ++ f))

/-- a date, `T` or `t`, and a time -/
def DateTimeText (s : Bytes) : Prop :=
  ∃ d l t, DateText d ∧ (l = 84 ∨ l = 116) ∧ TimeText t ∧ s = d ++ l :: t

/-- `+HH:MM` or `-HH:MM` -/
def OffsetText (s : Bytes) : Prop :=
  ∃ sign h m, (sign = 43 ∨ sign = 45) ∧ DigitsOf 2 h ∧ DigitsOf 2 m ∧ s = sign :: (h ++ 58 :: m)

/-- a date, `T` or `t`, a time, and an offset -/
def ZonedText (s : Bytes) : Prop := ∃ d o, DateTimeText d ∧ OffsetText o ∧ s = d ++ o

/-- What may stand between the quotes of a string: bytes other than quotes and backslashes, pairs of quotes, and
backslashes with any byte behind them. -/
inductive StringText : Bytes → Prop where
  | nil : StringText []
  | plain (b : UInt8) {s : Bytes} : b ≠ 39 → b ≠ 92 → StringText s → StringText (b :: s)
  | quotes {s : Bytes} : StringText s → StringText (39 :: 39 :: s)
  | escaped (b : UInt8) {s : Bytes} : StringText s → StringText (92 :: b :: s)

end Verif

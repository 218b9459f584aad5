import Verif.Lemmas.Time
import Mathlib.Tactic.NormNum
/-!
# Properties of times and intervals (C09, C10, C53, C56, C58)
-/

namespace Verif

/-! ## C09 -/

/-- **C09 (instant).** The time built from `units` at precision `p` is exactly `units * 10^-p`
seconds after 1970 (stated in nanoseconds), for every int64 value. -/
theorem C09_exact_instant (units : Int) (p : Nat) (hu : IsInt64 units) (hp : p ≤ 9) :
    ∃ t, timeFromPrecisionUnits units p = .ok t ∧ t.nanos = units * 10 ^ (9 - p) ∧ t.Normal :=
  timeFrom_spec units p hu hp

/-- **C09 (round trip).** Converting back at the same precision gives the same number exactly when
the instant expressed in the next SI unit (s, ms, us, ns) fits int64. For precisions 0, 3, 6, 9
that is every int64 value. -/
theorem C09_roundtrip (units : Int) (p : Nat) (hu : IsInt64 units) (hp : p ≤ 9) :
    (∃ r, changeTimePrecision units p p = .ok r) ∧
    (changeTimePrecision units p p = .ok units ↔ IsInt64 (units * 10 ^ (siPrecision p - p))) := by
  obtain ⟨t, h1, h2, h3⟩ := timeFrom_spec units p hu hp
  have h4 := getTime_spec t h3 p hp
  refine ⟨⟨_, by simp only [changeTimePrecision, h1, Res.ok_bind]; exact h4⟩, ?_⟩
  simp only [changeTimePrecision, h1, Res.ok_bind, h4, h2, Res.ok.injEq]
  have h10 : p = 0 ∨ p = 1 ∨ p = 2 ∨ p = 3 ∨ p = 4 ∨ p = 5 ∨ p = 6 ∨ p = 7 ∨ p = 8 ∨ p = 9 := by
    omega
  have h0 : units * 1000000000 / 1000000000 = units := by omega
  have k1 := wrapdiv_iff units 1 (by omega) hu
  have k10 := wrapdiv_iff units 10 (by omega) hu
  have k100 := wrapdiv_iff units 100 (by omega) hu
  rcases h10 with rfl | rfl | rfl | rfl | rfl | rfl | rfl | rfl | rfl | rfl
  · simp [siPrecision, hu, h0]
  · rw [show units * 10 ^ (9 - 1) / 10 ^ (9 - siPrecision 1) = units * 100 by
      norm_num [siPrecision]; omega]
    simpa [siPrecision] using k100
  · rw [show units * 10 ^ (9 - 2) / 10 ^ (9 - siPrecision 2) = units * 10 by
      norm_num [siPrecision]; omega]
    simpa [siPrecision] using k10
  · rw [show units * 10 ^ (9 - 3) / 10 ^ (9 - siPrecision 3) = units * 1 by
      norm_num [siPrecision]]
    simpa [siPrecision] using k1
  · rw [show units * 10 ^ (9 - 4) / 10 ^ (9 - siPrecision 4) = units * 100 by
      norm_num [siPrecision]; omega]
    simpa [siPrecision] using k100
  · rw [show units * 10 ^ (9 - 5) / 10 ^ (9 - siPrecision 5) = units * 10 by
      norm_num [siPrecision]; omega]
    simpa [siPrecision] using k10
  · rw [show units * 10 ^ (9 - 6) / 10 ^ (9 - siPrecision 6) = units * 1 by
      norm_num [siPrecision]]
    simpa [siPrecision] using k1
  · rw [show units * 10 ^ (9 - 7) / 10 ^ (9 - siPrecision 7) = units * 100 by
      norm_num [siPrecision]]
    simpa [siPrecision] using k100
  · rw [show units * 10 ^ (9 - 8) / 10 ^ (9 - siPrecision 8) = units * 10 by
      norm_num [siPrecision]]
    simpa [siPrecision] using k10
  · rw [show units * 10 ^ (9 - 9) / 10 ^ (9 - siPrecision 9) = units * 1 by
      norm_num [siPrecision]]
    simpa [siPrecision] using k1

/-- A negative sub-second count meets the hypotheses, in both outcomes. -/
example : IsInt64 (-15) ∧ IsInt64 (-15 * 10 ^ (siPrecision 1 - 1)) ∧
    changeTimePrecision (-15) 1 1 = .ok (-15) ∧
    IsInt64 9223372036854775807 ∧ changeTimePrecision 9223372036854775807 1 1 ≠
      .ok 9223372036854775807 := by
  refine ⟨by simp [IsInt64], by simp [IsInt64, siPrecision], by decide, by simp [IsInt64],
    by decide⟩

/-! ## C58 -/

/-- **C58.** Changing the precision of a time literal from `p` to `q` (when the instant fits int64
in the SI unit used): to a finer precision it is exact; to a coarser one it is off by less than one
unit of the coarser precision, and exact when the value is a whole number of coarser units. -/
theorem C58_change_precision (units : Int) (p q : Nat) (hu : IsInt64 units) (hp : p ≤ 9)
    (hq : q ≤ 9) (hr : IsInt64 (units * 10 ^ (siPrecision q - p))) :
    ∃ r, changeTimePrecision units p q = .ok r ∧
      (p ≤ q → r = units * 10 ^ (q - p)) ∧
      (q ≤ p → units - 10 ^ (p - q) < r * 10 ^ (p - q) ∧ r * 10 ^ (p - q) < units + 10 ^ (p - q)) ∧
      (q ≤ p → (10 ^ (p - q) : Int) ∣ units → r * 10 ^ (p - q) = units) := by
  obtain ⟨t, h1, h2, h3⟩ := timeFrom_spec units p hu hp
  have h4 := getTime_spec t h3 q hq
  refine ⟨_, by simp only [changeTimePrecision, h1, Res.ok_bind]; exact h4, ?_⟩
  rw [h2]
  obtain ⟨u1, u2⟩ := hu
  obtain ⟨r1, r2⟩ := hr
  clear h4 h1 h2 h3
  have p10 : p = 0 ∨ p = 1 ∨ p = 2 ∨ p = 3 ∨ p = 4 ∨ p = 5 ∨ p = 6 ∨ p = 7 ∨ p = 8 ∨ p = 9 := by
    omega
  have q10 : q = 0 ∨ q = 1 ∨ q = 2 ∨ q = 3 ∨ q = 4 ∨ q = 5 ∨ q = 6 ∨ q = 7 ∨ q = 8 ∨ q = 9 := by
    omega
  rcases q10 with rfl | rfl | rfl | rfl | rfl | rfl | rfl | rfl | rfl | rfl
  · rcases p10 with rfl | rfl | rfl | rfl | rfl | rfl | rfl | rfl | rfl | rfl <;>
      simp only [siPrecision, if_true] at * <;> norm_num at * <;> omega
  all_goals
    rw [if_neg (by omega)]
    rcases p10 with rfl | rfl | rfl | rfl | rfl | rfl | rfl | rfl | rfl | rfl <;>
      simp only [siPrecision] at * <;> norm_num at * <;>
      rw [wrap64_id (by omega) (by omega), goDiv_eq _ _ (by omega)] <;> split <;> omega

example : IsInt64 (-1234567) ∧ IsInt64 (-1234567 * 10 ^ (siPrecision 3 - 6)) ∧
    changeTimePrecision (-1234567) 6 3 = .ok (-1235) ∧
    changeTimePrecision (-1235) 3 9 = .ok (-1235000000) := by
  refine ⟨by simp [IsInt64], by simp [IsInt64, siPrecision], by decide, by decide⟩

/-! ## C10 -/

/-- **C10 (full statement of the first half, false).** -/
def C10_statement : Prop :=
  ∀ h m s us : Int, IsInt32 h → IsInt32 m → IsInt32 s → IsInt32 us →
    (0 ≤ micros h m s us ∧ micros h m s us < 86400000000 → newTime h m s us = .ok (micros h m s us))
    ∧ (¬ (0 ≤ micros h m s us ∧ micros h m s us < 86400000000) → newTime h m s us = .err)

/-- **C10, partial.** Every valid time of day is accepted with the right value, for all int32
inputs; every other input is rejected provided the described duration fits int64 nanoseconds
(about 292 years). Missing: durations beyond that wrap around and may be accepted. -/
theorem C10_newTime_partial (h m s us : Int) :
    (0 ≤ micros h m s us ∧ micros h m s us < 86400000000 →
      newTime h m s us = .ok (micros h m s us)) ∧
    (¬ (0 ≤ micros h m s us ∧ micros h m s us < 86400000000) → IsInt64 (micros h m s us * 1000) →
      newTime h m s us = .err) := by
  rw [newTime_eq]
  constructor
  · intro hr
    simp only
    have hg : goDiv (micros h m s us * 1000) 1000 = micros h m s us := by
      rw [goDiv_eq _ _ (by omega)]; split <;> omega
    rw [wrap64_id (by omega) (by omega), hg, if_neg (by omega)]
  · rintro hr ⟨h1, h2⟩
    simp only
    rw [wrap64_id (by omega) (by omega), goDiv_eq _ _ (by omega)]
    rw [if_pos]
    split <;> omega

/-- Whatever is accepted is a valid time of day. -/
theorem C10_newTime_in_day (h m s us t : Int) (hok : newTime h m s us = .ok t) :
    0 ≤ t ∧ t < 86400000000 := by
  rw [newTime_eq] at hok
  simp only at hok
  split at hok
  · simp at hok
  · cases hok; omega

/-- **C10 is false of the code**: 5124096 hours is accepted (as about 2.5 minutes past midnight). -/
theorem C10_negation : ¬ C10_statement := by
  intro h
  have := (h 5124096 0 0 0 (by simp [IsInt32]) (by simp [IsInt32]) (by simp [IsInt32])
    (by simp [IsInt32])).2 (by decide)
  revert this; decide

/-- **C10 (microsecond constructor).** -/
theorem C10_newTimeFromMicros (us : Int) :
    (0 ≤ us ∧ us < 86400000000 → newTimeFromMicros us = .ok us) ∧
    (¬ (0 ≤ us ∧ us < 86400000000) → newTimeFromMicros us = .err) := by
  unfold newTimeFromMicros
  constructor
  · intro h; rw [if_neg (by omega)]
  · intro h; rw [if_pos (by omega)]

example : (0 ≤ micros 23 59 59 999999 ∧ micros 23 59 59 999999 < 86400000000) ∧
    ¬ (micros 24 0 0 0 < 86400000000) ∧ IsInt64 (micros 24 0 0 0 * 1000) ∧
    ¬ (0 ≤ micros 0 0 0 (-1)) := by simp [micros, IsInt64]

/-! ## C53 -/

/-- **C53 (round trip).** Parsing the ISO text printed for a year-month interval gives the interval
back, for every pair of int32. -/
theorem C53_interval_text_roundtrip (y m : Int) (hy : IsInt32 y) (hm : IsInt32 m) :
    parseIntervalYearsToMonth (intervalYearIso y m) = .ok (y, m) := by
  obtain ⟨y1, y2⟩ := hy
  obtain ⟨m1, m2⟩ := hm
  have ny : ∀ i (b : UInt8), 57 < b.toNat → b ∉ intText i := fun i b hb h => by
    have := intText_mem i b h; omega
  have hY : lastIndex 89 (intText y ++ 89 :: (intText m ++ [77])) = (intText y).length := by
    apply lastIndex_append_cons
    simp only [List.mem_append, List.mem_singleton, not_or]
    exact ⟨ny m 89 (by decide), by decide⟩
  have hM : lastIndex 77 (intText y ++ 89 :: (intText m ++ [77])) =
      (intText y).length + 1 + (intText m).length := by
    rw [show intText y ++ 89 :: (intText m ++ [77]) = (intText y ++ 89 :: intText m) ++ 77 :: []
      by simp, lastIndex_append_cons 77 _ [] (by simp)]
    simp; omega
  have hlm : 0 < (intText m).length := List.length_pos_iff.2 (intText_ne_nil m)
  unfold intervalYearIso parseIntervalYearsToMonth
  simp only [hY, hM]
  rw [if_neg (by simp; omega), if_neg (by omega), if_pos (by omega)]
  rw [Int.toNat_natCast, List.take_left' rfl, atoi_intText y ⟨by omega, by omega⟩]
  simp only [Res.ok_bind]
  rw [if_pos (by omega)]
  rw [show ((intText y).length + 1 + (intText m).length - ((intText y).length + 1) : Int).toNat
    = (intText m).length by omega]
  rw [show (((intText y).length : Int) + 1).toNat = (intText y).length + 1 by omega]
  rw [show List.drop ((intText y).length + 1) (intText y ++ 89 :: (intText m ++ [77]))
    = intText m ++ [77] by rw [List.drop_append]; simp]
  rw [List.take_left' rfl, atoi_intText m ⟨by omega, by omega⟩]
  simp only [Res.ok_bind]
  rw [wrap32_id (by omega) (by omega), wrap32_id (by omega) (by omega)]

/-- **C53 (rejection of out-of-range components; full statement, false).** -/
def C53_reject_statement : Prop :=
  ∀ y m : Int, ¬ (IsInt32 y ∧ IsInt32 m) →
    parseIntervalYearsToMonth (intervalYearIso y m) = .err

/-- **C53 (rejection) is false of the code**: 2^32+1 years is read as one year. -/
theorem C53_reject_negation : ¬ C53_reject_statement := by
  intro h
  have h := h 4294967297 0 (by simp [IsInt32])
  have e : parseIntervalYearsToMonth (intervalYearIso 4294967297 0) = .ok (1, 0) := by
    have : intervalYearIso 4294967297 0 =
        [80, 52, 50, 57, 52, 57, 54, 55, 50, 57, 55, 89, 48, 77] := by
      simp [intervalYearIso, intText, natText]
    rw [this]; decide +kernel
  rw [e] at h; cases h

example : IsInt32 (-3) ∧ IsInt32 2147483647 := by simp [IsInt32]

/-! ## C56 -/

/-- The number of nanoseconds below the second denoted by an interval. -/
def IntervalDay.subNanos (v : IntervalDay) : Int := v.subseconds * 10 ^ (9 - v.precision)

/-- **C56 (full statement, false).** -/
def C56_statement : Prop :=
  ∀ (v : IntervalDay) (q : Nat), v.precision ≤ 9 → q ≤ 9 → IsInt64 v.subseconds →
    (intervalDayWithPrecision v q).days = v.days ∧
    (intervalDayWithPrecision v q).seconds = v.seconds ∧
    (intervalDayWithPrecision v q).subNanos = v.subNanos

theorem pow_split (a b : Nat) (h : a ≤ b) : (10 : Int) ^ b = 10 ^ a * 10 ^ (b - a) := by
  rw [← Int.pow_add]; congr 1; omega

/-- **C56, partial.** Days and seconds are always kept and the result has the requested precision.
The sub-second fraction is exactly kept when it is representable: to a finer precision if the
scaled count fits int64, to a coarser one if the count is a whole number of coarser units. Missing:
otherwise the code silently truncates or wraps instead of failing. -/
theorem C56_interval_precision_partial (v : IntervalDay) (q : Nat) (hp : v.precision ≤ 9)
    (hq : q ≤ 9) :
    (intervalDayWithPrecision v q).days = v.days ∧
    (intervalDayWithPrecision v q).seconds = v.seconds ∧
    (intervalDayWithPrecision v q).precision = q ∧
    (v.precision ≤ q → IsInt64 (v.subseconds * 10 ^ (q - v.precision)) →
      (intervalDayWithPrecision v q).subNanos = v.subNanos) ∧
    (q ≤ v.precision → (10 ^ (v.precision - q) : Int) ∣ v.subseconds →
      (intervalDayWithPrecision v q).subNanos = v.subNanos) := by
  refine ⟨rfl, rfl, rfl, ?_, ?_⟩
  · rintro h ⟨h1, h2⟩
    simp only [IntervalDay.subNanos, intervalDayWithPrecision]
    by_cases he : v.precision = q
    · subst he; simp
    · rw [if_pos (by omega), if_neg (by omega),
        show ((v.precision : Int) - q).natAbs = q - v.precision by omega, wrap64_id h1 h2,
        Int.mul_assoc, ← Int.pow_add]
      congr 2; omega
  · rintro h ⟨k, hk⟩
    simp only [IntervalDay.subNanos, intervalDayWithPrecision]
    by_cases he : v.precision = q
    · subst he; simp
    · rw [if_pos (by omega), if_pos (by omega),
        show ((v.precision : Int) - q).natAbs = v.precision - q by omega, hk]
      have h10 : (10 : Int) ^ (v.precision - q) ≠ 0 := Int.pow_ne_zero (by omega)
      unfold goDiv
      rw [Int.mul_tdiv_cancel_left _ h10, Int.mul_right_comm, ← Int.pow_add, Int.mul_comm k]
      congr 2; omega

/-- **C56 (finer and back).** -/
theorem C56_finer_and_back (v : IntervalDay) (q : Nat) (h : v.precision ≤ q)
    (hr : IsInt64 (v.subseconds * 10 ^ (q - v.precision))) :
    intervalDayWithPrecision (intervalDayWithPrecision v q) v.precision = v := by
  obtain ⟨d, s, ss, p⟩ := v
  simp only at h hr
  obtain ⟨h1, h2⟩ := hr
  simp only [intervalDayWithPrecision, IntervalDay.mk.injEq, true_and, and_true]
  by_cases he : p = q
  · subst he; simp
  · rw [if_pos (by omega), if_pos (by omega), if_pos (by omega), if_neg (by omega),
      show ((q : Int) - p).natAbs = q - p by omega, show ((p : Int) - q).natAbs = q - p by omega,
      wrap64_id h1 h2]
    unfold goDiv
    exact Int.mul_tdiv_cancel _ (Int.pow_ne_zero (by omega))

/-- **C56 is false of the code**: 1.234567 s at precision 6 becomes 1.234 s at precision 3 without
an error. -/
theorem C56_negation : ¬ C56_statement := by
  intro h
  have := (h ⟨0, 0, 1234567, 6⟩ 3 (by decide) (by decide) (by simp [IsInt64])).2.2
  revert this; decide

example : IsInt64 (1500 * 10 ^ (9 - 3)) ∧ ((10 : Int) ^ (3 - 1)) ∣ 1500 := by
  constructor
  · simp [IsInt64]
  · decide

end Verif

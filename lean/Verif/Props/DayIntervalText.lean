import Verif.Lemmas.DayIntervalText
import Verif.Props.DayInterval
/-!
# Properties of printing day-time intervals (C97)

`IsoValueString` of an interval_day literal, and reading the text back with `NewIntervalDaysToSecondFromString`.
-/

namespace Verif

/-- **C97 (full statement, false).** The text printed for an interval is read back as the same interval. -/
def C97_statement (big : ℚ → Int × Int × Int) : Prop :=
  ∀ v : IntervalDay, v.Proper → ∃ s w, intervalDayIso v = .ok s ∧ parseIntervalDaysToSecond big s = .ok w ∧
    w.days = v.days ∧ w.nanos = v.nanos

/-- **C97 (text).** From one second on, or with days and no time, the text printed for an interval is an ISO 8601
duration of exactly its value. What is missing from the full statement: a time of less than a second
(`C97_subsecond`), no time and no days, and what reading does to fractions (C96). -/
theorem C97_text_partial (v : IntervalDay) (h : v.Proper)
    (hv : 1 ≤ v.seconds ∨ (v.seconds = 0 ∧ v.subseconds = 0 ∧ 1 ≤ v.days)) :
    ∃ p : DayParts, p.Wf ∧ p.Some ∧ intervalDayIso v = .ok p.text ∧ decimalOpt p.days = v.days ∧
      p.wholeSeconds = v.seconds ∧ p.frac * 1000000000 = v.fracNanos ∧ p.fracDigits.length ≤ 9 ∧ p.whole < 60 := by
  obtain ⟨hp, ⟨d0, d1⟩, ⟨s0, s1⟩, ⟨u0, u1⟩⟩ := h
  let days : Option Bytes := if v.days > 0 then some (natText v.days.natAbs) else none
  have hdn : ∀ s, days = some s → IsNumber s := by
    intro s hs
    simp only [days] at hs
    split at hs <;> cases hs
    exact natText_isNumber _
  have hdt : (if v.days > 0 then intText v.days ++ [68] else []) = unitText 68 days := by
    simp only [days, intText]
    split
    · rw [if_neg (by omega)]; rfl
    · rfl
  have hdv : (decimalOpt days : Int) = v.days := by
    simp only [days]
    split
    · simp only [decimalOpt, decimal_natText]; omega
    · simp only [decimalOpt]; omega
  rcases hv with hv | ⟨hs, hu, hd⟩
  · -- the fraction in nanoseconds
    have hn0 : 0 ≤ v.fracNanos := by
      unfold IntervalDay.fracNanos
      exact mul_nonneg u0 (by positivity)
    have hn1 : v.fracNanos < 1000000000 := by
      unfold IntervalDay.fracNanos
      have : (10 : Int) ^ v.precision * 10 ^ (9 - v.precision) = 1000000000 := by
        rw [← pow_add, Nat.add_sub_cancel' hp]; norm_num
      rw [← this]
      exact mul_lt_mul_of_pos_right u1 (by positivity)
    obtain ⟨N, hN⟩ := Int.eq_ofNat_of_zero_le hn0
    obtain ⟨S, hS⟩ := Int.eq_ofNat_of_zero_le s0
    have hlong : 1000000000 ≤ S * 1000000000 + N := by omega
    obtain ⟨ds, e1, e2, e3, e4⟩ := durationString_long hlong days
    have hq : (S * 1000000000 + N) / 1000000000 = S := by omega
    have hr : (S * 1000000000 + N) % 1000000000 = N := by omega
    rw [hq] at e4
    rw [hr] at e3
    obtain ⟨w1, w2, w3⟩ := printedParts_values days S ds
    refine ⟨printedParts days S ds, printedParts_wf hdn S e1, Or.inr (Or.inr (Or.inr (by simp [printedParts]))),
      ?_, hdv, ?_, ?_, ?_, ?_⟩
    · unfold intervalDayIso
      simp only
      rw [if_pos (Or.inl (by omega)), subSeconds_spec u0 u1 hp, Res.ok_bind]
      rw [e4, hdt]
      have : v.subseconds * 10 ^ (9 - v.precision) = (N : Int) := hN
      rw [this, hS, wrap64_id (x := (S : Int) * 1000000000) (by omega) (by omega),
        wrap64_id (by omega) (by omega)]
      rfl
    · rw [w1, hS]
    · unfold DayParts.frac
      rw [w2, hN]
      have h9 : (1000000000 : ℚ) = 10 ^ ds.length * 10 ^ (9 - ds.length) := by
        rw [← pow_add, Nat.add_sub_cancel' e2]; norm_num
      rw [h9]
      have e3q : (decimal ds : ℚ) * 10 ^ (9 - ds.length) = N := by exact_mod_cast e3
      push_cast
      rw [← e3q]
      field_simp
    · rw [w2]; exact e2
    · rw [w3]; omega
  · refine ⟨⟨days, false, none, none, none⟩, ?_, ?_, ?_, hdv, ?_, ?_, ?_, ?_⟩
    · constructor
      · exact hdn
      all_goals simp
    · left; simp only [days]; rw [if_pos (by omega)]; simp
    · unfold intervalDayIso
      simp only
      rw [if_neg (by omega), hdt]
      simp [DayParts.text]
    · simp [DayParts.wholeSeconds, decimalOpt, DayParts.whole, hs]
    · simp [DayParts.frac, DayParts.fracDigits, IntervalDay.fracNanos, hu, decimal]
    · simp [DayParts.fracDigits]
    · simp [DayParts.whole]

example : (⟨3, 3700, 500000, 6⟩ : IntervalDay).Proper := by constructor <;> decide

/-- **C97 (round trip).** From one second on, or with days and no time, reading the text back gives the days and
seconds and the part of a second, or one nanosecond less. -/
theorem C97_roundtrip_partial (big : ℚ → Int × Int × Int) (v : IntervalDay) (h : v.Proper)
    (hv : 1 ≤ v.seconds ∨ (v.seconds = 0 ∧ v.subseconds = 0 ∧ 1 ≤ v.days)) :
    ∃ s w, intervalDayIso v = .ok s ∧ parseIntervalDaysToSecond big s = .ok w ∧ w.days = v.days ∧
      w.seconds = v.seconds ∧ 0 ≤ w.fracNanos ∧ (w.fracNanos = v.fracNanos ∨ w.fracNanos = v.fracNanos - 1) := by
  obtain ⟨p, hp, hs, ht, hd, hw, hf, hl, h60⟩ := C97_text_partial v h hv
  have := h.days.2
  have := h.seconds.2
  obtain ⟨w, h1, h2, h3, _, h5, h6⟩ := C96_fraction_partial big p hp hs hl (by omega) (by omega) (by omega)
  refine ⟨p.text, w, ht, h1, by rw [h2, hd], by rw [h3, hw], h5, ?_⟩
  rw [hf] at h6
  rcases h6 with h6 | h6
  · left; exact_mod_cast h6
  · right; exact_mod_cast h6

example (big : ℚ → Int × Int × Int) : ∃ s w, intervalDayIso ⟨3, 3700, 500000, 6⟩ = .ok s ∧
    parseIntervalDaysToSecond big s = .ok w ∧ w.days = 3 ∧ w.seconds = 3700 ∧ 0 ≤ w.fracNanos ∧
    (w.fracNanos = 500000000 ∨ w.fracNanos = 499999999) :=
  C97_roundtrip_partial big ⟨3, 3700, 500000, 6⟩ (by constructor <;> decide) (Or.inl (by decide))

/-- **C97 (whole seconds).** Without a part of a second the interval comes back exactly, in microseconds. -/
theorem C97_whole_partial (big : ℚ → Int × Int × Int) (v : IntervalDay) (h : v.Proper) (hu : v.subseconds = 0)
    (hv : 1 ≤ v.seconds ∨ 1 ≤ v.days) :
    ∃ s, intervalDayIso v = .ok s ∧ parseIntervalDaysToSecond big s = .ok ⟨v.days, v.seconds, 0, 6⟩ := by
  obtain ⟨p, hp, hs, ht, hd, hw, hf, hl, h60⟩ := C97_text_partial v h (by
    have := h.seconds.1; omega)
  have := h.days.2
  have := h.seconds.2
  have hz : p.frac = 0 := by
    have : v.fracNanos = 0 := by unfold IntervalDay.fracNanos; rw [hu]; simp
    rw [this] at hf
    simpa using hf
  refine ⟨p.text, ht, ?_⟩
  rw [C96_whole_partial big p hp hs hz (by omega) (by omega), hd, hw]

example (big : ℚ → Int × Int × Int) : ∃ s, intervalDayIso ⟨3, 3700, 0, 6⟩ = .ok s ∧
    parseIntervalDaysToSecond big s = .ok ⟨3, 3700, 0, 6⟩ :=
  C97_whole_partial big ⟨3, 3700, 0, 6⟩ (by constructor <;> decide) rfl (Or.inl (by decide))

/-- **C97 (less than a second).** A time of less than a second is never read back: the text is refused, or read
without any part of a second. -/
theorem C97_subsecond (big : ℚ → Int × Int × Int) (v : IntervalDay) (h : v.Proper) (hs : v.seconds = 0)
    (hu : 0 < v.subseconds) :
    ∃ s, intervalDayIso v = .ok s ∧ ∀ w, parseIntervalDaysToSecond big s = .ok w → w.fracNanos = 0 ∧
      w.fracNanos ≠ v.fracNanos := by
  obtain ⟨hp, ⟨d0, d1⟩, ⟨s0, s1⟩, ⟨u0, u1⟩⟩ := h
  have hn0 : 0 < v.fracNanos := by
    unfold IntervalDay.fracNanos
    exact mul_pos hu (by positivity)
  have hn1 : v.fracNanos < 1000000000 := by
    unfold IntervalDay.fracNanos
    have : (10 : Int) ^ v.precision * 10 ^ (9 - v.precision) = 1000000000 := by
      rw [← pow_add, Nat.add_sub_cancel' hp]; norm_num
    rw [← this]
    exact mul_lt_mul_of_pos_right u1 (by positivity)
  obtain ⟨N, hN⟩ := Int.eq_ofNat_of_zero_le hn0.le
  obtain ⟨t, c, hc, ht⟩ := durationString_short (d := N) (by omega) (by omega)
  have hiso : intervalDayIso v = .ok ((80 :: ((if v.days > 0 then intText v.days ++ [68] else []) ++ 84 :: t)) ++
      [c, 83]) := by
    unfold intervalDayIso
    simp only
    rw [if_pos (Or.inr hu), subSeconds_spec u0 u1 hp, Res.ok_bind]
    have : v.subseconds * 10 ^ (9 - v.precision) = (N : Int) := hN
    rw [this, hs, wrap64_id (x := (0 : Int) * 1000000000) (by omega) (by omega),
      wrap64_id (by omega) (by omega), Int.zero_mul, Int.zero_add, ht]
    simp
  refine ⟨_, hiso, fun w hw => ?_⟩
  have := parse_letter_S big hc hw
  have hz : w.fracNanos = 0 := by unfold IntervalDay.fracNanos; rw [this]; simp
  exact ⟨hz, by omega⟩

example (big : ℚ → Int × Int × Int) : ∃ s, intervalDayIso ⟨0, 0, 1500, 9⟩ = .ok s ∧
    ∀ w, parseIntervalDaysToSecond big s = .ok w → w.fracNanos = 0 ∧ w.fracNanos ≠ 1500 :=
  C97_subsecond big ⟨0, 0, 1500, 9⟩ (by constructor <;> decide) rfl (by decide)

/-- **C97 is false of the code**: half a second is printed as `PT500MS`, which is read as 500 minutes. -/
theorem C97_negation (big : ℚ → Int × Int × Int) : ¬ C97_statement big := by
  intro h
  obtain ⟨s, w, h1, h2, h3, h4⟩ := h ⟨0, 0, 500000, 6⟩ (by constructor <;> decide)
  have : intervalDayIso ⟨0, 0, 500000, 6⟩ = .ok [80, 84, 53, 48, 48, 77, 83] := by decide +kernel
  rw [this] at h1
  cases h1
  rw [half_second big] at h2
  cases h2
  revert h4
  decide

/-- **C97 (nothing and negative parts) is false of the code**: the empty interval is printed as `P`, which is refused,
and so is an interval of negative days or seconds. -/
theorem C97_negation_empty (big : ℚ → Int × Int × Int) (v : IntervalDay) (hd : v.days ≤ 0) (hs : v.seconds ≤ 0)
    (hu : v.subseconds ≤ 0) :
    intervalDayIso v = .ok [80] ∧ parseIntervalDaysToSecond big [80] = .err := by
  constructor
  · unfold intervalDayIso
    simp only
    rw [if_neg (by omega), if_neg (by omega)]
  · rfl

example (big : ℚ → Int × Int × Int) :
    intervalDayIso ⟨-1, 0, 0, 6⟩ = .ok [80] ∧ parseIntervalDaysToSecond big [80] = .err :=
  C97_negation_empty big ⟨-1, 0, 0, 6⟩ (by decide) (by decide) (by decide)

end Verif

import Verif.Lemmas.DayInterval
/-!
# Properties of the text of day-time intervals (C96)

`NewIntervalDaysToSecondFromString` reads texts like `P1DT2H3M4.5S`.
-/

namespace Verif

/-- **C96 (full statement, false).** A text of the form of an ISO 8601 duration with at most nine digits of a second
is read as the days and seconds it stands for if they fit, and any other text is refused. -/
def C96_statement (big : ℚ → Int × Int × Int) : Prop :=
    (∀ p : DayParts, p.Wf → p.Some → p.fracDigits.length ≤ 9 →
      decimalOpt p.days < 2 ^ 31 → p.wholeSeconds < 2 ^ 31 →
      ∃ v, parseIntervalDaysToSecond big p.text = .ok v ∧ v.days = decimalOpt p.days ∧
        (v.nanos : ℚ) = (p.wholeSeconds + p.frac) * 1000000000) ∧
    (∀ s v, parseIntervalDaysToSecond big s = .ok v →
      ∃ p : DayParts, p.Wf ∧ p.Some ∧ (∀ w f, p.seconds = some (w, f) → IsNumber w) ∧ s = p.text ∧
        decimalOpt p.days < 2 ^ 31 ∧ p.wholeSeconds < 2 ^ 31)

/-- **C96 (whole seconds).** A text without a fraction of a second, or with one of zeros, is read as exactly its days
and seconds, with 0 microseconds, if they fit into an int32. What is missing from the full statement: a fraction
(`C96_fraction_partial`, `C96_close_partial`). -/
theorem C96_whole_partial (big : ℚ → Int × Int × Int) (p : DayParts) (h : p.Wf) (hs : p.Some)
    (hf : p.frac = 0) (hd : decimalOpt p.days < 2 ^ 31) (hw : p.wholeSeconds < 2 ^ 31) :
    parseIntervalDaysToSecond big p.text = .ok ⟨decimalOpt p.days, p.wholeSeconds, 0, 6⟩ := by
  obtain ⟨v, nanos, micros, hv, hsp, h1, h2, h3⟩ := parse_text big h hs (by omega) hw (by rw [hf]; norm_num)
  have hwhole : p.whole < 2 ^ 31 := by unfold DayParts.wholeSeconds at hw; omega
  have hx : f64 ((p.whole : ℚ) + p.frac) = p.whole := by
    rw [hf, add_zero]; exact f64_nat (by omega)
  rw [hx] at hsp h2
  have hfl : ⌊(p.whole : ℚ)⌋ = (p.whole : ℤ) := Int.floor_natCast _
  rw [hfl] at hsp h2
  have hz : splitSeconds big (p.whole : ℚ) = ((p.whole : ℤ), 0, 0) := by
    unfold splitSeconds
    have hlt : (p.whole : ℚ) < 2 ^ 63 := by
      have : (p.whole : ℚ) < ((2 ^ 63 : ℕ) : ℚ) := by exact_mod_cast (by omega : p.whole < 2 ^ 63)
      refine lt_of_lt_of_eq this (by norm_num)
    rw [if_pos hlt, hfl]
    have : f64 ((p.whole : ℤ) : ℚ) = p.whole := by
      have := f64_nat (n := p.whole) (by omega)
      exact_mod_cast this
    simp only [this, sub_self, f64_zero, zero_mul, Int.floor_zero]
  rw [hz] at hsp
  have hn : nanos = 0 := by injection hsp with _ h; injection h with h _; exact h.symm
  have hm : micros = 0 := by injection hsp with _ h; injection h with _ h; exact h.symm
  subst hn hm
  rw [hv]
  rw [wrap32_id (by omega) (by omega)] at h1
  unfold DayParts.wholeSeconds at hw ⊢
  rw [wrap32_id (by omega) (by omega)] at h2
  rcases h3 with ⟨_, _, h5⟩ | ⟨h3, h4, _⟩
  · omega
  · cases v
    simp only at h1 h2 h3 h4
    rw [h1, h2, h3, h4]
    congr 2

/-- `P1DT2H3M4.0S` -/
def allParts : DayParts := ⟨some [49], true, some [50], some [51], some ([52], some [48])⟩

example (big : ℚ → Int × Int × Int) :
    parseIntervalDaysToSecond big [80, 49, 68, 84, 50, 72, 51, 77, 52, 46, 48, 83] = .ok ⟨1, 7384, 0, 6⟩ :=
  C96_whole_partial big allParts (DayParts.wf_of (by decide)) (Or.inl (by simp [allParts]))
    (by simp [DayParts.frac, DayParts.fracDigits, allParts, decimal]) (by decide) (by decide)

/-- **C96 (fraction of a second).** With at most nine digits of a second and less than 2^24 in the seconds part, days
and seconds are exact and the part of a second is exact or one nanosecond less. What is missing from the full
statement: that it is exact (`C96_negation`). -/
theorem C96_fraction_partial (big : ℚ → Int × Int × Int) (p : DayParts) (h : p.Wf) (hs : p.Some)
    (hf : p.fracDigits.length ≤ 9) (hd : decimalOpt p.days < 2 ^ 31) (hw : p.wholeSeconds < 2 ^ 31)
    (h24 : p.whole < 2 ^ 24) :
    ∃ v, parseIntervalDaysToSecond big p.text = .ok v ∧ v.days = decimalOpt p.days ∧
      v.seconds = p.wholeSeconds ∧ (v.precision = 6 ∨ v.precision = 9) ∧ 0 ≤ v.fracNanos ∧
      ((v.fracNanos : ℚ) = p.frac * 1000000000 ∨ (v.fracNanos : ℚ) = p.frac * 1000000000 - 1) := by
  obtain ⟨v, nanos, micros, hv, hsp, h1, h2, h3⟩ := parse_text big h hs (by omega) hw (frac_lt h)
  have hf0 := frac_nonneg p
  have hf1 := frac_lt h
  -- the fraction in nanoseconds is a whole number
  obtain ⟨N, hN⟩ : ∃ N : ℤ, p.frac * 1000000000 = N := by
    refine ⟨decimal p.fracDigits * 10 ^ (9 - p.fracDigits.length), ?_⟩
    unfold DayParts.frac
    have : (1000000000 : ℚ) = 10 ^ p.fracDigits.length * 10 ^ (9 - p.fracDigits.length) := by
      rw [← pow_add, Nat.add_sub_cancel' hf]; norm_num
    rw [this]
    push_cast
    field_simp
  have hwq : (p.whole : ℚ) + 1 ≤ 2 ^ 24 := by
    have : ((p.whole + 1 : ℕ) : ℚ) ≤ ((2 ^ 24 : ℕ) : ℚ) := by exact_mod_cast h24
    norm_num at this ⊢; linarith
  have h0 : (0 : ℚ) ≤ p.whole + p.frac := by positivity
  have herr := f64_err h0 (k := 24) (by
    have : (p.whole : ℚ) + p.frac < 2 ^ 24 := by linarith
    exact_mod_cast this) (by omega)
  have e30 : (2 : ℚ) ^ ((24 : ℤ) - 54) = 1 / 1073741824 := by norm_num
  rw [e30, abs_le] at herr
  have hx0 := f64_nonneg h0
  set x := f64 (p.whole + p.frac) with hxdef
  have hfl : ⌊x⌋ = (p.whole : ℤ) := by
    rw [Int.floor_eq_iff]
    push_cast
    rcases eq_or_lt_of_le hf0 with hz | hz
    · have : x = p.whole := by
        rw [hxdef, ← hz, add_zero]; exact f64_nat (by omega)
      rw [this]; constructor <;> linarith
    · have hN1 : 1 ≤ N := by
        have : (0 : ℚ) < N := by rw [← hN]; positivity
        have : 0 < N := by exact_mod_cast this
        omega
      have hN2 : N ≤ 999999999 := by
        have : (N : ℚ) < ((1000000000 : ℤ) : ℚ) := by rw [← hN]; push_cast; linarith
        have : N < 1000000000 := by exact_mod_cast this
        omega
      have hN1' : (1 : ℚ) ≤ N := by exact_mod_cast hN1
      have hN2' : (N : ℚ) ≤ 999999999 := by exact_mod_cast hN2
      constructor
      · linarith [herr.1]
      · linarith [herr.2]
  have hx32 : x < 2 ^ 32 := by
    have : (2 : ℚ) ^ 24 + 1 < 2 ^ 32 := by norm_num
    linarith [herr.2]
  obtain ⟨nanos', micros', hsp', hn0, hm0, hn1, hn2, hm1⟩ := split_close big hx0 hx32
  rw [hsp'] at hsp
  have hn : nanos' = nanos := by injection hsp with _ h; injection h
  have hm : micros' = micros := by injection hsp with _ h; injection h
  subst hn hm
  rw [hfl] at hn1 hn2 hm1 h2
  have e23 : (1 : ℚ) / 2 ^ 23 = 1 / 8388608 := by norm_num
  rw [e23] at hn1 hn2 hm1
  push_cast at hn1 hn2 hm1
  have b1 : nanos' < N + 1 := by
    have : (nanos' : ℚ) < ((N + 1 : ℤ) : ℚ) := by push_cast; linarith [herr.2]
    exact_mod_cast this
  have b2 : N < nanos' + 2 := by
    have : (N : ℚ) < ((nanos' + 2 : ℤ) : ℚ) := by push_cast; linarith [herr.1]
    exact_mod_cast this
  have b3 : micros' * 1000 < N + 1 := by
    have : ((micros' * 1000 : ℤ) : ℚ) < ((N + 1 : ℤ) : ℚ) := by push_cast; linarith [herr.2]
    exact_mod_cast this
  rw [wrap32_id (by omega) (by omega)] at h1
  have hws : (decimalOpt p.hours : ℤ) * 3600 + decimalOpt p.minutes * 60 + p.whole = p.wholeSeconds := by
    unfold DayParts.wholeSeconds; push_cast; ring
  rw [hws, wrap32_id (by omega) (by omega)] at h2
  refine ⟨v, hv, h1, h2, ?_, ?_, ?_⟩
  · rcases h3 with ⟨h3, _⟩ | ⟨h3, _⟩
    · exact Or.inr h3
    · exact Or.inl h3
  · unfold IntervalDay.fracNanos
    rcases h3 with ⟨h3, h4, _⟩ | ⟨h3, h4, _⟩ <;> rw [h3, h4] <;> norm_num <;> assumption
  · rw [hN]
    have : v.fracNanos = N ∨ v.fracNanos = N - 1 := by
      unfold IntervalDay.fracNanos
      rcases h3 with ⟨h3, h4, h5⟩ | ⟨h3, h4, h5⟩ <;> rw [h3, h4] <;> norm_num <;> omega
    rcases this with h | h <;> rw [h]
    · exact Or.inl rfl
    · right; push_cast; rfl

/-- `PT6.789S` -/
def secondsOnly : DayParts := ⟨none, true, none, none, some ([54], some [55, 56, 57])⟩

example (big : ℚ → Int × Int × Int) : ∃ v,
    parseIntervalDaysToSecond big [80, 84, 54, 46, 55, 56, 57, 83] = .ok v ∧ v.days = 0 ∧ v.seconds = 6 ∧
      (v.precision = 6 ∨ v.precision = 9) ∧ 0 ≤ v.fracNanos ∧
      (v.fracNanos = (secondsOnly.frac * 1000000000 : ℚ) ∨ v.fracNanos = (secondsOnly.frac * 1000000000 - 1 : ℚ)) :=
  C96_fraction_partial big secondsOnly (DayParts.wf_of (by decide))
    (Or.inr (Or.inr (Or.inr (by simp [secondsOnly])))) (by decide) (by decide) (by decide) (by decide)

/-- **C96 (any fraction).** With any number of digits of a second the seconds of the interval are within 121
nanoseconds of what the text stands for. -/
theorem C96_close_partial (big : ℚ → Int × Int × Int) (p : DayParts) (h : p.Wf) (hs : p.Some)
    (hd : decimalOpt p.days < 2 ^ 31) (hw : p.wholeSeconds < 2 ^ 31 - 1) :
    ∃ v, parseIntervalDaysToSecond big p.text = .ok v ∧ v.days = decimalOpt p.days ∧
      (v.precision = 6 ∨ v.precision = 9) ∧
      |(v.nanos : ℚ) - (p.wholeSeconds + p.frac) * 1000000000| ≤ 121 := by
  obtain ⟨v, nanos, micros, hv, hsp, h1, h2, h3⟩ := parse_text big h hs (by omega) (by omega) (frac_lt h)
  have hf0 := frac_nonneg p
  have hf1 := frac_lt h
  have hwh : p.whole + 1 ≤ 2 ^ 31 := by unfold DayParts.wholeSeconds at hw; omega
  have hwq : (p.whole : ℚ) + 1 ≤ 2 ^ 31 := by
    have : ((p.whole + 1 : ℕ) : ℚ) ≤ ((2 ^ 31 : ℕ) : ℚ) := by exact_mod_cast hwh
    norm_num at this ⊢; linarith
  have h0 : (0 : ℚ) ≤ p.whole + p.frac := by positivity
  have herr := f64_err h0 (k := 31) (by
    have : (p.whole : ℚ) + p.frac < 2 ^ 31 := by linarith
    exact_mod_cast this) (by omega)
  have e23' : (2 : ℚ) ^ ((31 : ℤ) - 54) = 1 / 8388608 := by norm_num
  rw [e23', abs_le] at herr
  have hx0 := f64_nonneg h0
  set x := f64 (p.whole + p.frac) with hxdef
  have hx32 : x < 2 ^ 32 := by
    have : (2 : ℚ) ^ 31 + 1 < 2 ^ 32 := by norm_num
    linarith [herr.2]
  obtain ⟨nanos', micros', hsp', hn0, hm0, hn1, hn2, hm1⟩ := split_close big hx0 hx32
  rw [hsp'] at hsp
  have hn : nanos' = nanos := by injection hsp with _ h; injection h
  have hm : micros' = micros := by injection hsp with _ h; injection h
  subst hn hm
  have e23 : (1 : ℚ) / 2 ^ 23 = 1 / 8388608 := by norm_num
  rw [e23] at hn1 hn2 hm1
  have hfl0 : 0 ≤ ⌊x⌋ := Int.floor_nonneg.mpr hx0
  have hfl2 : ⌊x⌋ < (p.whole : ℤ) + 2 := by
    rw [Int.floor_lt]; push_cast; linarith [herr.2]
  rw [wrap32_id (by omega) (by omega)] at h1
  have hws : (p.wholeSeconds : ℤ) = decimalOpt p.hours * 3600 + decimalOpt p.minutes * 60 + p.whole := by
    unfold DayParts.wholeSeconds; push_cast; ring
  rw [wrap32_id (by omega) (by omega)] at h2
  have hwsq : (p.wholeSeconds : ℚ) = decimalOpt p.hours * 3600 + decimalOpt p.minutes * 60 + p.whole := by
    unfold DayParts.wholeSeconds; push_cast; ring
  refine ⟨v, hv, h1, ?_, ?_⟩
  · rcases h3 with ⟨h3, _⟩ | ⟨h3, _⟩
    · exact Or.inr h3
    · exact Or.inl h3
  · unfold IntervalDay.nanos IntervalDay.fracNanos
    rw [h2, hwsq, abs_le]
    rcases h3 with ⟨h3, h4, h5⟩ | ⟨h3, h4, h5⟩
    · rw [h3, h4]; push_cast
      norm_num
      constructor <;> linarith [herr.1, herr.2]
    · have h5' : (nanos' : ℚ) ≤ micros' * 1000 := by exact_mod_cast h5
      rw [h3, h4]; push_cast
      norm_num
      constructor <;> linarith [herr.1, herr.2]

example (big : ℚ → Int × Int × Int) : ∃ v,
    parseIntervalDaysToSecond big [80, 84, 54, 46, 55, 56, 57, 83] = .ok v ∧ v.days = 0 ∧
      (v.precision = 6 ∨ v.precision = 9) ∧
      |(v.nanos : ℚ) - ((6 : Nat) + secondsOnly.frac) * 1000000000| ≤ 121 :=
  C96_close_partial big secondsOnly (DayParts.wf_of (by decide))
    (Or.inr (Or.inr (Or.inr (by simp [secondsOnly])))) (by decide) (by decide)

/-- **C96 (form).** Every text that is accepted has the form, but the digits of the seconds may be missing. -/
theorem C96_form (big : ℚ → Int × Int × Int) (s : Bytes) (v : IntervalDay)
    (h : parseIntervalDaysToSecond big s = .ok v) : ∃ p : DayParts, p.Wf ∧ s = p.text := by
  unfold parseIntervalDaysToSecond at h
  split at h
  · cases h
  · split at h
    · cases h
    · rename_i g hg
      exact dayRegexp_some hg

/-- there are texts of the form and texts that are not -/
example : dayRegexp [80, 84, 54, 83] ≠ none ∧ dayRegexp [80, 54, 83] = none := by decide

/-- `PT1.000001S`, one second and one microsecond, is read as one second and 999 nanoseconds. -/
theorem one_micro (big : ℚ → Int × Int × Int) :
    parseIntervalDaysToSecond big [80, 84, 49, 46, 48, 48, 48, 48, 48, 49, 83] = .ok ⟨0, 1, 999, 9⟩ := by
  rw [parse_big big (fun _ => (0, 0, 0)) (g := ⟨[], [], [], [49], some [48, 48, 48, 48, 48, 49]⟩)
    (x := 4503604130970123 / 4503599627370496) (by decide) (by decide +kernel) (by norm_num)]
  decide +kernel

/-- `P4294967297D`, 2^32 + 1 days, is read as one day. -/
theorem many_days (big : ℚ → Int × Int × Int) :
    parseIntervalDaysToSecond big [80, 52, 50, 57, 52, 57, 54, 55, 50, 57, 55, 68] = .ok ⟨1, 0, 0, 6⟩ := by
  rw [parse_big big (fun _ => (0, 0, 0)) (g := ⟨[52, 50, 57, 52, 57, 54, 55, 50, 57, 55], [], [], [], none⟩)
    (x := 0) (by decide) (by decide +kernel) (by norm_num)]
  decide +kernel

/-- `PT500MS`, half a second as Go prints it, is read as 500 minutes. -/
theorem half_second (big : ℚ → Int × Int × Int) :
    parseIntervalDaysToSecond big [80, 84, 53, 48, 48, 77, 83] = .ok ⟨0, 30000, 0, 6⟩ := by
  rw [parse_big big (fun _ => (0, 0, 0)) (g := ⟨[], [], [53, 48, 48], [], none⟩)
    (x := 0) (by decide) (by decide +kernel) (by norm_num)]
  decide +kernel

/-- **C96 is false of the code**: one second and one microsecond are read as one second and 999 nanoseconds. -/
theorem C96_negation (big : ℚ → Int × Int × Int) : ¬ C96_statement big := by
  rintro ⟨h, _⟩
  obtain ⟨v, hv, _, hn⟩ := h ⟨none, true, none, none, some ([49], some [48, 48, 48, 48, 48, 49])⟩
    (DayParts.wf_of (by decide)) (Or.inr (Or.inr (Or.inr (by simp)))) (by decide) (by decide) (by decide)
  have : v = ⟨0, 1, 999, 9⟩ := Res.ok.inj (hv.symm.trans (one_micro big))
  subst this
  revert hn
  decide +kernel

/-- **C96 (refusal) is false of the code**: days that do not fit into an int32 are accepted with another meaning, and
so are seconds without digits. -/
theorem C96_negation_refusal (big : ℚ → Int × Int × Int) :
    (∃ p : DayParts, p.Wf ∧ decimalOpt p.days = 2 ^ 32 + 1 ∧
      parseIntervalDaysToSecond big p.text = .ok ⟨1, 0, 0, 6⟩) ∧
    (∃ p : DayParts, p.minutes = some [53, 48, 48] ∧ p.seconds = some ([], none) ∧
      parseIntervalDaysToSecond big p.text = .ok ⟨0, 30000, 0, 6⟩) :=
  ⟨⟨⟨some [52, 50, 57, 52, 57, 54, 55, 50, 57, 55], false, none, none, none⟩, DayParts.wf_of (by decide),
      by decide, many_days big⟩,
    ⟨⟨none, true, none, some [53, 48, 48], some ([], none)⟩, rfl, rfl, half_second big⟩⟩

end Verif

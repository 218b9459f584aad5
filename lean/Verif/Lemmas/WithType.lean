import Verif.Props.Time
/-! # Lemmas for C98: conversions between precisions of values that fit -/

namespace Verif

theorem int64_ofInt_toInt (i : Int) (h : IsInt64 i) : (Int64.ofInt i).toInt = i := by
  obtain ⟨h1, h2⟩ := h
  rw [Int64.toInt_ofInt]; simp only [Int64.size, Int.bmod]; omega

theorem modifyDecimal_params {bs b : List UInt8} {scale tp ts p s : Int}
    (h : modifyDecimal bs scale tp ts = .ok (b, p, s)) : p = tp ∧ s = ts := by
  unfold modifyDecimal at h
  split at h
  · cases h
  · simp only at h
    split at h
    · cases h
    · rw [Res.bind_eq_ok] at h
      obtain ⟨c, -, h⟩ := h
      split at h
      · cases h
      · cases h; exact ⟨rfl, rfl⟩

theorem pow_cancel (u : Int) {p q : Nat} (hp : p ≤ 9) (hq : q ≤ p)
    (h : (10 ^ (9 - q) : Int) ∣ u * 10 ^ (9 - p)) : (10 ^ (p - q) : Int) ∣ u := by
  rw [pow_split (9 - p) (9 - q) (by omega), show 9 - q - (9 - p) = p - q by omega, mul_comm u] at h
  exact (mul_dvd_mul_iff_left (Int.pow_ne_zero (by omega))).1 h

/-- What is kept of a time count: a count that can be written with the new precision stands for the same time. -/
theorem changeTime_value (u : Int) (p q : Nat) (hu : IsInt64 u) (hp : p ≤ 9) (hq : q ≤ 9)
    (hr : IsInt64 (u * 10 ^ (siPrecision q - p))) (hf : (10 ^ (9 - q) : Int) ∣ u * 10 ^ (9 - p)) :
    ∃ r, changeTimePrecision u p q = .ok r ∧ IsInt64 r ∧ r * 10 ^ (9 - q) = u * 10 ^ (9 - p) := by
  obtain ⟨r, h1, h2, -, h4⟩ := C58_change_precision u p q hu hp hq hr
  refine ⟨r, h1, ?_⟩
  rcases Nat.le_total p q with h | h
  · have hrq := h2 h
    have hsi : q ≤ siPrecision q := by unfold siPrecision; omega
    constructor
    · rw [hrq]
      rw [pow_split (q - p) (siPrecision q - p) (by omega), ← mul_assoc] at hr
      have hpos : (1 : Int) ≤ 10 ^ (siPrecision q - p - (q - p)) := one_le_pow₀ (by norm_num)
      generalize u * 10 ^ (q - p) = x at hr ⊢
      generalize (10 : Int) ^ (siPrecision q - p - (q - p)) = y at hr hpos
      obtain ⟨h5, h6⟩ := hr
      constructor
      · by_contra hc
        have : x * y ≤ x * 1 := mul_le_mul_of_nonpos_left hpos (by omega)
        omega
      · by_contra hc
        have : x * 1 ≤ x * y := mul_le_mul_of_nonneg_left hpos (by omega)
        omega
    · rw [hrq, mul_assoc, ← pow_add]; congr 2; omega
  · have hd := h4 h (pow_cancel u hp h hf)
    constructor
    · have hpos : (1 : Int) ≤ 10 ^ (p - q) := one_le_pow₀ (by norm_num)
      generalize (10 : Int) ^ (p - q) = y at hd hpos
      obtain ⟨h5, h6⟩ := hu
      constructor
      · by_contra hc
        have : r * y ≤ r * 1 := mul_le_mul_of_nonpos_left hpos (by omega)
        omega
      · by_contra hc
        have : r * 1 ≤ r * y := mul_le_mul_of_nonneg_left hpos (by omega)
        omega
    · rw [← hd, mul_assoc, ← pow_add]; congr 2; omega

theorem int64_isInt64 (i : Int64) : IsInt64 i.toInt := by
  have h1 := Int64.le_toInt i
  have h2 := Int64.toInt_lt i
  constructor <;> omega

/-- The same for intervals. -/
theorem interval_value (d : IntervalDay) (q : Nat) (hu : IsInt64 d.subseconds) (hp : d.precision ≤ 9)
    (hq : q ≤ 9) (hr : IsInt64 (d.subseconds * 10 ^ (q - d.precision)))
    (hf : (10 ^ (9 - q) : Int) ∣ d.subseconds * 10 ^ (9 - d.precision)) :
    IsInt64 (intervalDayWithPrecision d q).subseconds ∧
    (intervalDayWithPrecision d q).subseconds * 10 ^ (9 - q) = d.subseconds * 10 ^ (9 - d.precision) := by
  obtain ⟨-, -, h3, h4, h5⟩ := C56_interval_precision_partial d q hp hq
  have hv : (intervalDayWithPrecision d q).subNanos = d.subNanos := by
    rcases Nat.le_total d.precision q with h | h
    · exact h4 h hr
    · exact h5 h (pow_cancel _ hp h hf)
  simp only [IntervalDay.subNanos, h3] at hv
  refine ⟨?_, hv⟩
  generalize (intervalDayWithPrecision d q).subseconds = r at hv
  rcases Nat.le_total d.precision q with h | h
  · rw [pow_split (9 - q) (9 - d.precision) (by omega),
      show 9 - d.precision - (9 - q) = q - d.precision by omega, mul_comm (10 ^ (9 - q)), ← mul_assoc] at hv
    rw [Int.eq_of_mul_eq_mul_right (Int.pow_ne_zero (by omega)) hv]
    exact hr
  · rw [pow_split (9 - d.precision) (9 - q) (by omega),
      show 9 - q - (9 - d.precision) = d.precision - q by omega, mul_comm (10 ^ (9 - d.precision)),
      ← mul_assoc] at hv
    have hd := Int.eq_of_mul_eq_mul_right (Int.pow_ne_zero (by omega)) hv
    have hpos : (1 : Int) ≤ 10 ^ (d.precision - q) := one_le_pow₀ (by norm_num)
    generalize (10 : Int) ^ (d.precision - q) = y at hd hpos
    obtain ⟨h5, h6⟩ := hu
    constructor
    · by_contra hc
      have : r * y ≤ r * 1 := mul_le_mul_of_nonpos_left hpos (by omega)
      omega
    · by_contra hc
      have : r * 1 ≤ r * y := mul_le_mul_of_nonneg_left hpos (by omega)
      omega

end Verif

import Verif.Model.Float64
import Mathlib.Tactic.Linarith
import Mathlib.Tactic.Positivity
import Mathlib.Tactic.FieldSimp
import Mathlib.Tactic.NormNum
/-! # Helper lemmas about double precision numbers -/

namespace Verif

theorem roundEven_int (n : ℤ) : roundEven (n : ℚ) = n := by
  unfold roundEven
  rw [Int.floor_intCast, sub_self, if_pos (by norm_num)]

theorem roundEven_err (x : ℚ) : |(roundEven x : ℚ) - x| ≤ 1 / 2 := by
  have h1 := Int.floor_le x
  have h2 := Int.lt_floor_add_one x
  unfold roundEven
  rw [abs_le]
  split
  · constructor <;> linarith
  · split
    · push_cast; constructor <;> linarith
    · split
      · constructor <;> linarith
      · push_cast; constructor <;> linarith

theorem floor_le_roundEven (x : ℚ) : ⌊x⌋ ≤ roundEven x := by
  unfold roundEven; split
  · exact le_refl _
  · split
    · omega
    · split <;> omega

theorem f64_nonneg {x : ℚ} (h : 0 ≤ x) : 0 ≤ f64 x := by
  unfold f64
  have h1 : (0 : ℚ) < 2 ^ f64Exp x := zpow_pos (by norm_num) _
  have h2 : 0 ≤ x / 2 ^ f64Exp x := div_nonneg h h1.le
  have h3 : 0 ≤ roundEven (x / 2 ^ f64Exp x) := le_trans (Int.floor_nonneg.mpr h2) (floor_le_roundEven _)
  have h4 : (0 : ℚ) ≤ (roundEven (x / 2 ^ f64Exp x) : ℚ) := by exact_mod_cast h3
  exact mul_nonneg h4 h1.le

theorem f64_zero : f64 0 = 0 := by
  unfold f64
  rw [zero_div]
  have := roundEven_int 0
  rw [Int.cast_zero] at this
  rw [this]; simp

/-- numbers on the grid are kept -/
theorem f64_grid {x : ℚ} (n j : ℤ) (hx : x = n * 2 ^ j) (hj : f64Exp x ≤ j) : f64 x = x := by
  unfold f64
  have h2 : (2 : ℚ) ≠ 0 := by norm_num
  obtain ⟨d, hd⟩ := Int.eq_ofNat_of_zero_le (show 0 ≤ j - f64Exp x by omega)
  have hq : x / 2 ^ f64Exp x = ((n * 2 ^ d : ℤ) : ℚ) := by
    have : (2 : ℚ) ^ j = 2 ^ d * 2 ^ f64Exp x := by
      rw [← zpow_natCast, ← zpow_add₀ h2]; congr 1; omega
    have hne : (2 : ℚ) ^ f64Exp x ≠ 0 := zpow_ne_zero _ h2
    rw [div_eq_iff hne]
    push_cast
    rw [mul_assoc, ← this]; exact hx
  rw [hq, roundEven_int, ← hq]
  have hne : (2 : ℚ) ^ f64Exp x ≠ 0 := zpow_ne_zero _ h2
  exact div_mul_cancel₀ _ hne

theorem log_lt {x : ℚ} (h0 : 0 < x) {k : ℤ} (hk : x < 2 ^ k) : Int.log 2 x < k :=
  (Int.lt_zpow_iff_log_lt (by norm_num) h0).mp (by exact_mod_cast hk)

/-- whole numbers below 2^53 are kept -/
theorem f64_nat {n : ℕ} (h : n < 2 ^ 53) : f64 (n : ℚ) = n := by
  rcases Nat.eq_zero_or_pos n with rfl | hn
  · simpa using f64_zero
  · refine f64_grid n 0 (by simp) ?_
    have : Int.log 2 (n : ℚ) < 53 := log_lt (by exact_mod_cast hn) (by
      have : (n : ℚ) < ((2 ^ 53 : ℕ) : ℚ) := by exact_mod_cast h
      refine lt_of_lt_of_eq this (by norm_num))
    unfold f64Exp; omega

/-- the error of rounding -/
theorem f64_err {x : ℚ} (h0 : 0 ≤ x) {k : ℤ} (hk : x < 2 ^ k) (hk2 : -1021 ≤ k) :
    |f64 x - x| ≤ 2 ^ (k - 54) := by
  rcases eq_or_lt_of_le h0 with rfl | hx
  · rw [f64_zero, sub_self, abs_zero]; exact (zpow_pos (by norm_num) _).le
  · have hl := log_lt hx hk
    have he : f64Exp x ≤ k - 53 := by unfold f64Exp; omega
    have h1 := roundEven_err (x / 2 ^ f64Exp x)
    have hp : (0 : ℚ) < 2 ^ f64Exp x := zpow_pos (by norm_num) _
    have h2 : f64 x - x = (roundEven (x / 2 ^ f64Exp x) - x / 2 ^ f64Exp x) * 2 ^ f64Exp x := by
      unfold f64
      rw [sub_mul, div_mul_cancel₀ _ hp.ne']
    rw [h2, abs_mul, abs_of_pos hp]
    have h3 : (2 : ℚ) ^ f64Exp x ≤ 2 ^ (k - 53) := zpow_le_zpow_right₀ (by norm_num) he
    have h4 : (2 : ℚ) ^ (k - 53) = 2 * 2 ^ (k - 54) := by
      rw [show k - 53 = 1 + (k - 54) by ring, zpow_add₀ (by norm_num), zpow_one]
    calc _ ≤ 1 / 2 * (2 : ℚ) ^ f64Exp x := by gcongr
      _ ≤ 1 / 2 * 2 ^ (k - 53) := by gcongr
      _ = 2 ^ (k - 54) := by rw [h4]; ring

end Verif

import Mathlib.Analysis.SpecialFunctions.Log.Deriv
import Mathlib.Analysis.SpecialFunctions.Log.Base

/-!
# Digits of logarithms

Twenty-four digits of `ln 2`, `ln (3/2)` and `ln 10`, from the series of the area tangent.
-/

namespace Verif

/-- The first terms of the series of the logarithm of `(1 + x) / (1 - x)`. -/
def artanhSum (x : ℚ) (n : ℕ) : ℚ := 2 * ((List.range n).map fun i : ℕ => x ^ (2 * i + 1) / (2 * i + 1)).sum

theorem log_of_series {x : ℚ} (h0 : 0 ≤ x) (h1 : x < 1) (n : ℕ) {lo hi : ℚ} (hlo : lo ≤ artanhSum x n) (hhi : artanhSum x n + 2 * (x ^ (2 * n + 1) / (1 - x ^ 2)) ≤ hi) :
    (lo : ℝ) ≤ Real.log (((1 + x) / (1 - x) : ℚ) : ℝ) ∧ Real.log (((1 + x) / (1 - x) : ℚ) : ℝ) ≤ hi := by
  have h0' : (0 : ℝ) ≤ x := by exact_mod_cast h0
  have h1' : (x : ℝ) < 1 := by exact_mod_cast h1
  have e : ((artanhSum x n : ℚ) : ℝ) = 2 * ∑ i ∈ Finset.range n, (x : ℝ) ^ (2 * i + 1) / (2 * i + 1) := by
    unfold artanhSum
    rw [show ((List.range n).map fun i : ℕ => x ^ (2 * i + 1) / (2 * i + 1)).sum = ∑ i ∈ Finset.range n, x ^ (2 * i + 1) / (2 * i + 1) from rfl]
    push_cast
    rfl
  have h2 := Real.sum_range_le_log_div h0' h1' n
  have h3 := Real.log_div_le_sum_range_add h0' h1' n
  have h4 : (lo : ℝ) ≤ (artanhSum x n : ℚ) := by exact_mod_cast hlo
  have h5 : ((artanhSum x n + 2 * (x ^ (2 * n + 1) / (1 - x ^ 2)) : ℚ) : ℝ) ≤ hi := by exact_mod_cast hhi
  push_cast at h5 ⊢
  rw [e] at h4 h5
  constructor <;> linarith

theorem log_two_digits : (((693147180559945309417232 / 10 ^ 24 : ℚ) : ℝ)) ≤ Real.log 2 ∧ Real.log 2 ≤ ((693147180559945309417233 / 10 ^ 24 : ℚ) : ℝ) := by
  have := log_of_series (x := 1 / 3) (by norm_num) (by norm_num) 26 (lo := 693147180559945309417232 / 10 ^ 24) (hi := 693147180559945309417233 / 10 ^ 24) (by decide +kernel) (by decide +kernel)
  rwa [show (((1 + 1 / 3) / (1 - 1 / 3) : ℚ) : ℝ) = 2 by norm_num] at this

theorem log_three_halves_digits : (((405465108108164381978013 / 10 ^ 24 : ℚ) : ℝ)) ≤ Real.log (3 / 2) ∧ Real.log (3 / 2) ≤ ((405465108108164381978014 / 10 ^ 24 : ℚ) : ℝ) := by
  have := log_of_series (x := 1 / 5) (by norm_num) (by norm_num) 20 (lo := 405465108108164381978013 / 10 ^ 24) (hi := 405465108108164381978014 / 10 ^ 24) (by decide +kernel) (by decide +kernel)
  rwa [show (((1 + 1 / 5) / (1 - 1 / 5) : ℚ) : ℝ) = 3 / 2 by norm_num] at this

theorem log_five_fourths_digits : (((223143551314209755766295 / 10 ^ 24 : ℚ) : ℝ)) ≤ Real.log (5 / 4) ∧ Real.log (5 / 4) ≤ ((223143551314209755766296 / 10 ^ 24 : ℚ) : ℝ) := by
  have := log_of_series (x := 1 / 9) (by norm_num) (by norm_num) 16 (lo := 223143551314209755766295 / 10 ^ 24) (hi := 223143551314209755766296 / 10 ^ 24) (by decide +kernel) (by decide +kernel)
  rwa [show (((1 + 1 / 9) / (1 - 1 / 9) : ℚ) : ℝ) = 5 / 4 by norm_num] at this

theorem log_ten_digits : (((2302585092994045684017991 / 10 ^ 24 : ℚ) : ℝ)) ≤ Real.log 10 ∧ Real.log 10 ≤ ((2302585092994045684017995 / 10 ^ 24 : ℚ) : ℝ) := by
  have h1 := log_two_digits
  have h2 := log_five_fourths_digits
  have e : Real.log 10 = 3 * Real.log 2 + Real.log (5 / 4) := by
    rw [show (10 : ℝ) = 2 ^ 3 * (5 / 4) by norm_num, Real.log_mul (by norm_num) (by norm_num), Real.log_pow]
    norm_num
  rw [e]
  push_cast at *
  norm_num at *
  constructor <;> linarith

/-- `log2 e`. -/
theorem inv_log_two_digits : (((14426950408889634073599 / 10 ^ 22 : ℚ) : ℝ)) ≤ 1 / Real.log 2 ∧ 1 / Real.log 2 ≤ ((14426950408889634073600 / 10 ^ 22 : ℚ) : ℝ) := by
  have h1 := log_two_digits
  have h0 : 0 < Real.log 2 := Real.log_pos (by norm_num)
  push_cast at *
  norm_num at *
  rw [← one_div]
  constructor
  · rw [le_div_iff₀ h0]; linarith
  · rw [div_le_iff₀ h0]; linarith

theorem logb_three_halves_digits : (((5849625007211561814537 / 10 ^ 22 : ℚ) : ℝ)) ≤ Real.logb 2 (3 / 2) ∧ Real.logb 2 (3 / 2) ≤ ((5849625007211561814539 / 10 ^ 22 : ℚ) : ℝ) := by
  have h1 := log_two_digits
  have h2 := log_three_halves_digits
  have h0 : 0 < Real.log 2 := Real.log_pos (by norm_num)
  rw [← Real.log_div_log]
  push_cast at *
  norm_num at *
  constructor
  · rw [le_div_iff₀ h0]; linarith
  · rw [div_le_iff₀ h0]; linarith

/-- `log10 2`. -/
theorem inv_logb_ten_digits : (((3010299956639811952137 / 10 ^ 22 : ℚ) : ℝ)) ≤ 1 / Real.logb 2 10 ∧ 1 / Real.logb 2 10 ≤ ((3010299956639811952138 / 10 ^ 22 : ℚ) : ℝ) := by
  have h1 := log_two_digits
  have h2 := log_ten_digits
  have h0 : 0 < Real.log 10 := Real.log_pos (by norm_num)
  rw [← Real.log_div_log, one_div_div]
  push_cast at *
  norm_num at *
  constructor
  · rw [le_div_iff₀ h0]; linarith
  · rw [div_le_iff₀ h0]; linarith

end Verif

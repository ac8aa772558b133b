import Mathlib.Analysis.SpecialFunctions.Pow.Real

/-! # Comparisons of `10^n` and `100^n` with linear terms -/

namespace Verif

theorem lin_le_pow (a b : ℝ) (k n : ℕ) (hk : k ≤ n) (ha : 0 ≤ a) (c : ℝ) (h0 : a * k + b ≤ c * 10 ^ k)
    (ha2 : a ≤ c * 10 ^ k) : a * n + b ≤ c * 10 ^ n := by
  obtain ⟨m, rfl⟩ : ∃ m, n = k + m := ⟨n - k, by omega⟩
  have hc : 0 ≤ c * 10 ^ k := by
    have : (0 : ℝ) ≤ k := by positivity
    nlinarith
  clear hk
  induction m with
  | zero => simpa using h0
  | succ m ih =>
    rw [← add_assoc, pow_succ]
    push_cast at ih ⊢
    have h1 : c * 10 ^ k ≤ c * 10 ^ (k + m) := by
      rw [pow_add, ← mul_assoc]
      have : (1 : ℝ) ≤ 10 ^ m := one_le_pow₀ (by norm_num)
      nlinarith
    nlinarith

theorem div_hundred_pow (a b c : ℝ) (n : ℕ) (h : a * n + b ≤ c * 10 ^ n) : 1 / 100 ^ n * (a * n + b) ≤ c * (1 / 10 ^ n) := by
  have e : (100 : ℝ) ^ n = 10 ^ n * 10 ^ n := by rw [← mul_pow]; norm_num
  rw [e]
  have hp : (0 : ℝ) < 10 ^ n := by positivity
  rw [div_mul_eq_mul_div, one_mul, div_le_iff₀ (by positivity)]
  calc a * n + b ≤ c * 10 ^ n := h
    _ = c * (1 / 10 ^ n) * (10 ^ n * 10 ^ n) := by field_simp

theorem ten_pow_le (n m : ℕ) (c : ℝ) (hc : 0 ≤ c) (h : n ≤ m) : c / 10 ^ m ≤ c * (1 / 10 ^ n) := by
  rw [mul_one_div]
  exact div_le_div_of_nonneg_left hc (by positivity) (pow_le_pow_right₀ (by norm_num) h)

end Verif

import Verif.Lemmas.Terms

/-!
# C23, C24: accuracy of exp, sin and cos

`d.val : ℚ` is the value of the decimal returned; the specification is Mathlib's real function.
-/

namespace Verif
open Bd Dec

/-- The explicit error bound for arguments up to `B` and a series of at most `K` terms. -/
noncomputable def expBound (B n K : ℕ) : ℝ :=
  1 / 20 / 10 ^ n + 1 / 2 * (1 / 10 ^ 99) * Real.exp B +
    1 / 100 ^ n * (Real.exp B + K / 2 + Real.exp B * (1 + Real.exp B / 2))

theorem expBound_lt (B n K : ℕ) (hB : B + 2 ≤ n) (hn : n + B ≤ 98) (hK : K ≤ 14 * n) (hn3 : 3 ≤ n) :
    expBound B n K < 1 / 10 ^ n := by
  unfold expBound
  have hE : Real.exp B * Real.exp B ≤ 10 ^ B := by
    have h : Real.exp (B : ℝ) = Real.exp 1 ^ B := by rw [← Real.exp_nat_mul]; simp
    rw [h, ← mul_pow]
    have h1 := Real.exp_one_lt_d9
    have h2 := Real.exp_pos 1
    gcongr
    nlinarith
  have hE1 : 1 ≤ Real.exp B := Real.one_le_exp (by positivity)
  have hE2 : Real.exp B ≤ 10 ^ B := by nlinarith
  have hp : (0 : ℝ) < 10 ^ n := by positivity
  have h100 : (100 : ℝ) ^ n = 10 ^ n * 10 ^ n := by rw [← mul_pow]; norm_num
  have hBn : (10 : ℝ) ^ B ≤ 10 ^ n / 100 := by
    obtain ⟨k, rfl⟩ : ∃ k, n = B + 2 + k := ⟨n - (B + 2), by omega⟩
    rw [pow_add, pow_add]
    have : (1 : ℝ) ≤ 10 ^ k := one_le_pow₀ (by norm_num)
    have h0 : (0 : ℝ) < 10 ^ B := by positivity
    nlinarith
  have hlin : (7 : ℝ) * n ≤ 10 ^ n / 10 := by
    obtain ⟨k, rfl⟩ : ∃ k, n = 3 + k := ⟨n - 3, by omega⟩
    clear hBn h100 hp hK hn hB hn3
    induction k with
    | zero => norm_num
    | succ k ih =>
      rw [← add_assoc, pow_succ]
      push_cast at ih ⊢
      have : (1 : ℝ) ≤ 10 ^ (3 + k) / 10 := by
        rw [pow_add]
        have : (1 : ℝ) ≤ 10 ^ k := one_le_pow₀ (by norm_num)
        linarith
      linarith
  have hKR : (K : ℝ) ≤ 14 * n := by exact_mod_cast hK
  have h99 : (10 : ℝ) ^ n * 10 ^ B ≤ 10 ^ 99 / 10 := by
    rw [← pow_add]
    calc (10 : ℝ) ^ (n + B) ≤ 10 ^ 98 := pow_le_pow_right₀ (by norm_num) hn
      _ = 10 ^ 99 / 10 := by norm_num
  have t2 : 1 / 2 * (1 / 10 ^ 99) * Real.exp B ≤ 1 / 20 * (1 / 10 ^ n) := by
    have : Real.exp B * 10 ^ n ≤ 10 ^ 99 / 10 := by nlinarith
    have h99p : (0 : ℝ) < 10 ^ 99 := by positivity
    rw [show (1 : ℝ) / 20 * (1 / 10 ^ n) = 1 / 20 / 10 ^ n by ring, le_div_iff₀ hp]
    calc 1 / 2 * (1 / 10 ^ 99) * Real.exp B * 10 ^ n = 1 / 2 * (1 / 10 ^ 99) * (Real.exp B * 10 ^ n) := by ring
      _ ≤ 1 / 2 * (1 / 10 ^ 99) * (10 ^ 99 / 10) := by gcongr
      _ = 1 / 20 := by field_simp; norm_num
  have t3 : 1 / 100 ^ n * (Real.exp B + K / 2 + Real.exp B * (1 + Real.exp B / 2)) ≤ 1 / 4 * (1 / 10 ^ n) := by
    have h4 : Real.exp B + K / 2 + Real.exp B * (1 + Real.exp B / 2) ≤ 10 ^ n / 4 := by nlinarith
    calc 1 / 100 ^ n * (Real.exp B + K / 2 + Real.exp B * (1 + Real.exp B / 2)) ≤ 1 / 100 ^ n * (10 ^ n / 4) := by gcongr
      _ = 1 / 4 * (1 / 10 ^ n) := by rw [h100]; field_simp
  have hpos : (0 : ℝ) < 1 / 10 ^ n := by positivity
  have e : (1 : ℝ) / 20 / 10 ^ n = 1 / 20 * (1 / 10 ^ n) := by ring
  linarith

theorem divEps_real : ((divEps : ℚ) : ℝ) = 1 / 2 * (1 / 10 ^ 99) := by
  unfold divEps; norm_num

/-- **C23** For every bound `B ≥ 1` on the argument and every digit count within the loop guard, `exp` returns and its
error is at most the explicit `expBound`. -/
theorem C23_exp_error (x : Dec) (n B : ℕ) (hB : 1 ≤ B) (hx : |x.val| ≤ B) (hn : 2 * n + 11 * B + 3 ≤ 30001) :
    ∃ d, Bd.exp x n = .ok d ∧ |(d.val : ℝ) - Real.exp (x.val : ℝ)| ≤ expBound B n (2 * n + 11 * B + 3) := by
  obtain ⟨d, h1, h2⟩ := expLike_error x n expTerm expC expLike_exp divEps divEps_nonneg divEps_le _ follows_exp () trivial
    B hB hx (2 * n + 11 * B + 3) le_rfl hn (by unfold expC; positivity) _ (hasSum_exp _)
  rw [divEps_real] at h2
  exact ⟨d, h1, h2⟩

/-- **C23** For arguments with `|x| ≤ B` where `B + 2 ≤ n` and `n + B ≤ 98`, `exp` at `n` digits returns a number that
differs from the exponential by less than `10^-n`. -/
theorem C23_exp_accurate (x : Dec) (n B : ℕ) (hB : 1 ≤ B) (hx : |x.val| ≤ B) (hn : B + 2 ≤ n) (hn2 : n + B ≤ 98) :
    ∃ d, Bd.exp x n = .ok d ∧ |(d.val : ℝ) - Real.exp (x.val : ℝ)| < 1 / 10 ^ n := by
  obtain ⟨d, h1, h2⟩ := C23_exp_error x n B hB hx (by omega)
  exact ⟨d, h1, h2.trans_lt (expBound_lt B n _ hn hn2 (by omega) (by omega))⟩

/-- **C24** `sin` returns with an explicit error bound. -/
theorem C24_sin_error (x : Dec) (n B : ℕ) (hB : 1 ≤ B) (hx : |x.val| ≤ B) (hn : 2 * n + 12 * B + 3 ≤ 30001) :
    ∃ d, Bd.sin x n = .ok d ∧ |(d.val : ℝ) - Real.sin (x.val : ℝ)| ≤ expBound B n (2 * n + 12 * B + 3) := by
  obtain ⟨d, h1, h2⟩ := expLike_error x n sinTerm sinC expLike_sin divEps divEps_nonneg divEps_le _ follows_sin () trivial
    B hB hx (2 * n + 12 * B + 3) (by omega) hn
    (by
      unfold sinC
      split_ifs
      · positivity
      · rw [neg_ne_zero]; positivity
      · omega) _ (hasSum_sin _)
  rw [divEps_real] at h2
  exact ⟨d, h1, h2⟩

/-- **C24** For `|x| ≤ B`, `B + 2 ≤ n` and `n + B ≤ 98`, `sin` at `n` digits is within `10^-n` of the sine. -/
theorem C24_sin_accurate (x : Dec) (n B : ℕ) (hB : 1 ≤ B) (hx : |x.val| ≤ B) (hn : B + 2 ≤ n) (hn2 : n + B ≤ 98) :
    ∃ d, Bd.sin x n = .ok d ∧ |(d.val : ℝ) - Real.sin (x.val : ℝ)| < 1 / 10 ^ n := by
  obtain ⟨d, h1, h2⟩ := C24_sin_error x n B hB hx (by omega)
  exact ⟨d, h1, h2.trans_lt (expBound_lt B n _ hn hn2 (by omega) (by omega))⟩

/-- **C24** `cos` returns with an explicit error bound. -/
theorem C24_cos_error (x : Dec) (n B : ℕ) (hB : 1 ≤ B) (hx : |x.val| ≤ B) (hn : 2 * n + 12 * B + 4 ≤ 30001) :
    ∃ d, Bd.cos x n = .ok d ∧ |(d.val : ℝ) - Real.cos (x.val : ℝ)| ≤ expBound B n (2 * n + 12 * B + 4) := by
  obtain ⟨d, h1, h2⟩ := expLike_error x n cosTerm cosC expLike_cos divEps divEps_nonneg divEps_le _ follows_cos () trivial
    B hB hx (2 * n + 12 * B + 4) (by omega) hn
    (by
      unfold cosC
      split_ifs
      · positivity
      · rw [neg_ne_zero]; positivity
      · omega) _ (hasSum_cos _)
  rw [divEps_real] at h2
  exact ⟨d, h1, h2⟩

/-- **C24** For `|x| ≤ B`, `B + 2 ≤ n` and `n + B ≤ 98`, `cos` at `n` digits is within `10^-n` of the cosine. -/
theorem C24_cos_accurate (x : Dec) (n B : ℕ) (hB : 1 ≤ B) (hx : |x.val| ≤ B) (hn : B + 2 ≤ n) (hn2 : n + B ≤ 98) :
    ∃ d, Bd.cos x n = .ok d ∧ |(d.val : ℝ) - Real.cos (x.val : ℝ)| < 1 / 10 ^ n := by
  obtain ⟨d, h1, h2⟩ := C24_cos_error x n B hB hx (by omega)
  exact ⟨d, h1, h2.trans_lt (expBound_lt B n _ hn hn2 (by omega) (by omega))⟩

/-- The 40 digits used for 64-bit floats allow any argument up to 38; the 20 digits used for 32-bit floats up to 18. -/
example : (1 : ℕ) ≤ 38 ∧ |(⟨-375, 1⟩ : Dec).val| ≤ (38 : ℕ) ∧ 38 + 2 ≤ 40 ∧ 40 + 38 ≤ 98 := by
  refine ⟨by norm_num, ?_, by norm_num, by norm_num⟩
  norm_num [Dec.val, abs_le]
example : (1 : ℕ) ≤ 18 ∧ |(⟨175, 1⟩ : Dec).val| ≤ (18 : ℕ) ∧ 18 + 2 ≤ 20 ∧ 20 + 18 ≤ 98 := by
  refine ⟨by norm_num, ?_, by norm_num, by norm_num⟩
  norm_num [Dec.val, abs_le]

end Verif

import Mathlib.Analysis.Analytic.Binomial
import Mathlib.MeasureTheory.Integral.DominatedConvergence
import Mathlib.Analysis.SpecialFunctions.Trigonometric.InverseDeriv
import Mathlib.MeasureTheory.Integral.IntervalIntegral.FundThmCalculus
import Mathlib.Analysis.SpecialFunctions.Integrals.Basic

/-!
# The power series of the inverse sine
-/

namespace Verif

/-- The coefficients of `1 / √(1 - x)`. -/
noncomputable def isqrtCoeff (n : ℕ) : ℝ := Ring.choose ((1 / 2 : ℝ) + n - 1) n

theorem isqrtCoeff_pos (n : ℕ) : 0 < isqrtCoeff n := by
  have h := Ring.factorial_nsmul_multichoose_eq_ascPochhammer (1 / 2 : ℝ) n
  rw [Polynomial.ascPochhammer_smeval_eq_eval, Ring.multichoose_eq] at h
  have h1 : 0 < (ascPochhammer ℝ n).eval (1 / 2 : ℝ) := ascPochhammer_pos n _ (by norm_num)
  rw [← h, nsmul_eq_mul] at h1
  exact pos_of_mul_pos_right h1 (by positivity)

theorem hasSum_isqrt {x : ℝ} (hx : |x| < 1) : HasSum (fun n => isqrtCoeff n * x ^ n) (1 / √(1 - x)) := by
  have h := (Real.one_div_one_sub_rpow_hasFPowerSeriesOnBall_zero (1 / 2)).hasSum (y := x) (by simpa [enorm_eq_nnnorm] using! hx)
  simp only [FormalMultilinearSeries.ofScalars_apply_eq, zero_add, smul_eq_mul] at h
  rw [Real.sqrt_eq_rpow]
  exact h

theorem hasSum_arcsin {x : ℝ} (hx : |x| < 1) : HasSum (fun n => isqrtCoeff n / (2 * n + 1) * x ^ (2 * n + 1)) (Real.arcsin x) := by
  have hin : ∀ t ∈ Set.uIcc 0 x, |t| ≤ |x| := by
    intro t ht
    have := Set.abs_sub_left_of_mem_uIcc ht
    simpa using this
  have hsq : ∀ t : ℝ, |t| < 1 → t ^ 2 < 1 := fun t ht => by
    have := (sq_lt_one_iff_abs_lt_one t).2 ht
    exact this
  have hx2 : |x ^ 2| < 1 := by rw [abs_of_nonneg (sq_nonneg x)]; exact hsq x hx
  have h := intervalIntegral.hasSum_integral_of_dominated_convergence (a := 0) (b := x) (μ := MeasureTheory.volume)
    (F := fun n t => isqrtCoeff n * (t ^ 2) ^ n) (f := fun t => 1 / √(1 - t ^ 2)) (fun n _ => isqrtCoeff n * (x ^ 2) ^ n)
    (fun n => (by fun_prop : Continuous fun t : ℝ => isqrtCoeff n * (t ^ 2) ^ n).aestronglyMeasurable)
    (fun n => MeasureTheory.ae_of_all _ fun t ht => by
      rw [Real.norm_eq_abs, abs_mul, abs_of_pos (isqrtCoeff_pos n), abs_of_nonneg (by positivity)]
      refine mul_le_mul_of_nonneg_left (pow_le_pow_left₀ (sq_nonneg t) ?_ n) (isqrtCoeff_pos n).le
      exact sq_le_sq.2 (hin t (Set.uIoc_subset_uIcc ht)))
    (MeasureTheory.ae_of_all _ fun t _ => (hasSum_isqrt hx2).summable)
    (by simp)
    (MeasureTheory.ae_of_all _ fun t ht => hasSum_isqrt (by
      rw [abs_of_nonneg (sq_nonneg t)]
      exact hsq t ((hin t (Set.uIoc_subset_uIcc ht)).trans_lt hx)))
  have e1 : ∀ n : ℕ, ∫ t in (0:ℝ)..x, isqrtCoeff n * (t ^ 2) ^ n = isqrtCoeff n / (2 * n + 1) * x ^ (2 * n + 1) := by
    intro n
    simp only [← pow_mul]
    rw [intervalIntegral.integral_const_mul, integral_pow]
    push_cast
    simp only [ne_eq, Nat.add_eq_zero_iff, one_ne_zero, and_false, not_false_eq_true, zero_pow, sub_zero]
    ring
  have e2 : ∫ t in (0:ℝ)..x, 1 / √(1 - t ^ 2) = Real.arcsin x := by
    rw [intervalIntegral.integral_eq_sub_of_hasDerivAt (f := Real.arcsin)]
    · simp
    · intro t ht
      have := (hin t ht).trans_lt hx
      rw [abs_lt] at this
      exact Real.hasDerivAt_arcsin this.1.ne' this.2.ne
    · apply ContinuousOn.intervalIntegrable
      apply ContinuousOn.div continuousOn_const (by fun_prop)
      intro t ht
      have := hsq t ((hin t ht).trans_lt hx)
      exact (Real.sqrt_pos.2 (by linarith)).ne'
  simp only [e1, e2] at h
  exact h

end Verif

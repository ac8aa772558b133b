import Mathlib.Analysis.Analytic.Binomial
import Mathlib.Analysis.Calculus.SmoothSeries
import Mathlib.Analysis.SpecialFunctions.Trigonometric.InverseDeriv
import Verif.Lemmas.GeoSeries

/-! # The arcsine series -/

namespace Verif
namespace Bd
open Finset

theorem choose_succ_mul (r : ℝ) (n : ℕ) : ((n : ℝ) + 1) * Ring.choose r (n + 1) = Ring.choose r n * (r - n) := by
  have h := Ring.choose_smul_choose r (n := n + 1) (k := n) (by omega)
  rw [show n + 1 - n = 1 by omega, Ring.choose_one_right, Nat.choose_succ_self_right, nsmul_eq_mul] at h
  push_cast at h
  exact h

theorem choose_neg_half (n : ℕ) : Ring.choose (-(1 / 2) : ℝ) n = (-1) ^ n * (cbr n : ℝ) := by
  induction n with
  | zero => simp [cbr]
  | succ n ih =>
    have h := choose_succ_mul (-(1 / 2)) n
    rw [ih] at h
    rw [cbr_succ]
    push_cast
    have hn : (n : ℝ) + 1 ≠ 0 := by positivity
    have h2 : Ring.choose (-(1 / 2) : ℝ) (n + 1) = (-1) ^ n * (cbr n : ℝ) * (-(1 / 2) - n) / (n + 1) := by
      rw [eq_div_iff hn, mul_comm]; exact h
    rw [h2, pow_succ]
    field_simp
    ring

theorem hasSum_inv_sqrt (x : ℝ) (hx : |x| < 1) : HasSum (fun k : ℕ => (cbr k : ℝ) * x ^ (2 * k)) (1 / √(1 - x ^ 2)) := by
  have hx2 : x ^ 2 < 1 := by rw [← sq_abs]; nlinarith [abs_nonneg x]
  have h := (Real.one_add_rpow_hasFPowerSeriesOnBall_zero (a := -(1 / 2))).hasSum (y := -x ^ 2) (by
    rw [EMetric.mem_ball, edist_zero_right]
    have : ‖-x ^ 2‖ < 1 := by rw [norm_neg, Real.norm_eq_abs, abs_of_nonneg (sq_nonneg x)]; exact hx2
    rw [← ofReal_norm_eq_enorm]
    exact ENNReal.ofReal_lt_one.2 this)
  simp only [zero_add] at h
  have e : (1 + -x ^ 2) ^ (-(1 / 2) : ℝ) = 1 / √(1 - x ^ 2) := by
    rw [← sub_eq_add_neg, Real.rpow_neg (by linarith), Real.sqrt_eq_rpow]
    simp
  rw [e] at h
  have hfun : (fun k : ℕ => (cbr k : ℝ) * x ^ (2 * k)) = fun n => (binomialSeries ℝ (-(1 / 2) : ℝ) n) fun _ => -x ^ 2 := ?_
  · rw [hfun]; exact h
  funext k
  rw [binomialSeries_apply, choose_neg_half]
  simp only [List.ofFn_const, List.prod_replicate, smul_eq_mul]
  rw [neg_pow (x ^ 2), pow_mul]
  have : ((-1 : ℝ) ^ k) * (-1) ^ k = 1 := by rw [← mul_pow]; simp
  linear_combination (-(cbr k : ℝ) * (x ^ 2) ^ k) * this

theorem hasSum_asin_odd (x : ℝ) (hx : |x| < 1) :
    HasSum (fun k : ℕ => (cbr k : ℝ) * x ^ (2 * k + 1) / (2 * k + 1)) (Real.arcsin x) := by
  obtain ⟨ρ, hρ1, hρ2⟩ := exists_between hx
  have hρ0 : 0 < ρ := lt_of_le_of_lt (abs_nonneg x) hρ1
  have hcb : ∀ k, 0 ≤ (cbr k : ℝ) ∧ (cbr k : ℝ) ≤ 1 := fun k =>
    ⟨by exact_mod_cast (cbr_pos k).le, by exact_mod_cast cbr_le_one k⟩
  have hu : Summable fun k : ℕ => ρ ^ (2 * k) := by
    have := summable_geometric_of_lt_one (r := ρ ^ 2) (by positivity) (by nlinarith)
    simpa only [pow_mul] using this
  set g : ℕ → ℝ → ℝ := fun k y => (cbr k : ℝ) * y ^ (2 * k + 1) / (2 * k + 1) with hg
  set g' : ℕ → ℝ → ℝ := fun k y => (cbr k : ℝ) * y ^ (2 * k) with hg'
  set t : Set ℝ := Set.Ioo (-ρ) ρ with ht
  have hder : ∀ n y, y ∈ t → HasDerivAt (g n) (g' n y) y := by
    intro n y _
    have h1 := ((hasDerivAt_pow (2 * n + 1) y).const_mul (cbr n : ℝ)).div_const (2 * (n : ℝ) + 1)
    have hn : (2 * (n : ℝ) + 1) ≠ 0 := by positivity
    refine h1.congr_deriv ?_
    simp only [hg', Nat.add_sub_cancel]
    push_cast
    field_simp
  have hbd : ∀ n y, y ∈ t → ‖g' n y‖ ≤ ρ ^ (2 * n) := by
    intro n y hy
    have hy' : |y| ≤ ρ := abs_le.2 ⟨hy.1.le, hy.2.le⟩
    simp only [hg', Real.norm_eq_abs, abs_mul, abs_pow, abs_of_nonneg (hcb n).1]
    calc (cbr n : ℝ) * |y| ^ (2 * n) ≤ 1 * ρ ^ (2 * n) := by
          gcongr
          exact (hcb n).2
      _ = _ := one_mul _
  have h0t : (0 : ℝ) ∈ t := ⟨by linarith, hρ0⟩
  have hxt : x ∈ t := abs_lt.1 hρ1
  have hs0 : Summable fun n => g n 0 := by
    have : (fun n => g n 0) = fun _ => 0 := by funext n; simp [hg]
    rw [this]; exact summable_zero
  have hF : ∀ y ∈ t, HasDerivAt (fun z => ∑' n, g n z) (1 / √(1 - y ^ 2)) y := by
    intro y hy
    have h1 := hasDerivAt_tsum_of_isPreconnected hu isOpen_Ioo isPreconnected_Ioo hder hbd h0t hs0 hy
    have hy1 : |y| < 1 := lt_trans (abs_lt.2 hy) hρ2
    rwa [(hasSum_inv_sqrt y hy1).tsum_eq] at h1
  have hG : ∀ y ∈ t, HasDerivAt (fun z => (∑' n, g n z) - Real.arcsin z) 0 y := by
    intro y hy
    have h2 := Real.hasDerivAt_arcsin (x := y) (by linarith [hy.1]) (by linarith [hy.2])
    have := (hF y hy).sub h2
    rw [sub_self] at this
    exact this
  have hconst := IsOpen.is_const_of_deriv_eq_zero isOpen_Ioo isPreconnected_Ioo
    (fun y hy => (hG y hy).differentiableAt.differentiableWithinAt) (fun y hy => (hG y hy).deriv) hxt h0t
  have hz : (∑' n, g n 0) = 0 := by
    have : (fun n => g n 0) = fun _ => 0 := by funext n; simp [hg]
    rw [this]; simp
  simp only [hz, Real.arcsin_zero, sub_self] at hconst
  have hsum : Summable fun n => g n x :=
    summable_of_summable_hasDerivAt_of_isPreconnected hu isOpen_Ioo isPreconnected_Ioo hder hbd h0t hs0 hxt
  have := hsum.hasSum
  rwa [show (∑' n, g n x) = Real.arcsin x by linarith] at this

theorem hasSum_asin (x : ℝ) (hx : |x| < 1) : HasSum (fun j => (asinC j : ℝ) * x ^ j) (Real.arcsin x) := by
  refine hasSum_odd (hasSum_asin_odd x hx) (fun k => by rw [asinC_even]; simp) (fun k => ?_)
  rw [asinC_odd]
  push_cast
  ring

end Bd
end Verif

import Mathlib.Analysis.SpecialFunctions.Gaussian.GaussianIntegral
import Verif.Lemmas.Erf

/-! # The normal distribution -/

namespace Verif
open Bd Dec MeasureTheory

/-- Distribution function of the standard normal distribution. -/
noncomputable def normalCdf (u : ℝ) : ℝ := 1 / √(2 * Real.pi) * ∫ t in Set.Iic u, Real.exp (-t ^ 2 / 2)

/-- Density of the standard normal distribution. -/
noncomputable def normalPdf (u : ℝ) : ℝ := 1 / √(2 * Real.pi) * Real.exp (-u ^ 2 / 2)

namespace Bd

theorem integrable_half : Integrable fun t : ℝ => Real.exp (-t ^ 2 / 2) := by
  have h := integrable_exp_neg_mul_sq (b := 1 / 2) (by norm_num)
  have e : (fun t : ℝ => Real.exp (-t ^ 2 / 2)) = fun x : ℝ => Real.exp (-(1 / 2) * x ^ 2) := by
    funext t; congr 1; ring
  rw [e]; exact h

theorem integral_Iic_half : ∫ t in Set.Iic (0 : ℝ), Real.exp (-t ^ 2 / 2) = √(2 * Real.pi) / 2 := by
  have h1 := integral_gaussian (1 / 2)
  have h2 := integral_gaussian_Ioi (1 / 2)
  have e : (fun x : ℝ => Real.exp (-(1 / 2) * x ^ 2)) = fun t : ℝ => Real.exp (-t ^ 2 / 2) := by
    funext t; congr 1; ring
  rw [e] at h1 h2
  have h3 := intervalIntegral.integral_Iic_add_Ioi (b := (0 : ℝ)) integrable_half.integrableOn integrable_half.integrableOn
  rw [h1, h2] at h3
  have e2 : Real.pi / (1 / 2) = 2 * Real.pi := by ring
  rw [e2] at h3
  linarith

theorem normalCdf_eq (u : ℝ) : normalCdf u = 1 / 2 + 1 / √Real.pi * gaussInt (u / √2) := by
  unfold normalCdf
  have h1 := intervalIntegral.integral_Iic_sub_Iic (a := (0 : ℝ)) (b := u) integrable_half.integrableOn integrable_half.integrableOn
  rw [integral_Iic_half] at h1
  have hs2 : √(2 : ℝ) ≠ 0 := by positivity
  have h2 := intervalIntegral.integral_comp_div (fun t : ℝ => Real.exp (-t ^ 2)) (a := 0) (b := u) hs2
  have e : (fun x : ℝ => Real.exp (-(x / √2) ^ 2)) = fun t : ℝ => Real.exp (-t ^ 2 / 2) := by
    funext t; congr 1; rw [div_pow, Real.sq_sqrt (by norm_num)]; ring
  rw [zero_div, smul_eq_mul] at h2
  change (∫ x in (0 : ℝ)..u, (fun x : ℝ => Real.exp (-(x / √2) ^ 2)) x) = _ at h2
  rw [e] at h2
  have h3 : ∫ t in Set.Iic u, Real.exp (-t ^ 2 / 2) = √(2 * Real.pi) / 2 + √2 * gaussInt (u / √2) := by
    rw [show gaussInt (u / √2) = ∫ t in (0 : ℝ)..(u / √2), Real.exp (-t ^ 2) from rfl, ← h2, ← h1]; ring
  rw [h3, Real.sqrt_mul (by norm_num)]
  have : √Real.pi ≠ 0 := by have := Real.pi_pos; positivity
  field_simp

theorem gaussInt_lipschitz (x y : ℝ) : |gaussInt x - gaussInt y| ≤ |x - y| := by
  unfold gaussInt
  have hi : ∀ a b : ℝ, IntervalIntegrable (fun t : ℝ => Real.exp (-t ^ 2)) volume a b := fun a b =>
    (by fun_prop : Continuous fun t : ℝ => Real.exp (-t ^ 2)).intervalIntegrable a b
  rw [intervalIntegral.integral_interval_sub_left (hi _ _) (hi _ _)]
  have h := intervalIntegral.norm_integral_le_of_norm_le_const (a := y) (b := x) (C := 1) (f := fun t : ℝ => Real.exp (-t ^ 2))
    (by
      intro t _
      rw [Real.norm_of_nonneg (Real.exp_pos _).le]
      exact Real.exp_le_one_iff.2 (by nlinarith [sq_nonneg t]))
  simpa using h

theorem inv_root_pi_le : 1 / √Real.pi ≤ 0.6 := by
  have h : (1.75 : ℝ) ≤ √Real.pi := Real.le_sqrt_of_sq_le (by norm_num; linarith [Real.pi_gt_d2])
  rw [div_le_iff₀ (by linarith)]; linarith

theorem normalCdf_lipschitz (x y : ℝ) : |normalCdf x - normalCdf y| ≤ 1 / 2 * |x - y| := by
  rw [normalCdf_eq, normalCdf_eq]
  have h1 := gaussInt_lipschitz (x / √2) (y / √2)
  have e : 1 / 2 + 1 / √Real.pi * gaussInt (x / √2) - (1 / 2 + 1 / √Real.pi * gaussInt (y / √2)) =
      1 / √Real.pi * (gaussInt (x / √2) - gaussInt (y / √2)) := by ring
  rw [e, abs_mul, abs_of_nonneg (by positivity)]
  have hs : (1.4 : ℝ) ≤ √2 := Real.le_sqrt_of_sq_le (by norm_num)
  have e2 : x / √2 - y / √2 = (x - y) / √2 := by ring
  rw [e2, abs_div, abs_of_nonneg (Real.sqrt_nonneg 2)] at h1
  have h2 : |x - y| / √2 ≤ 5 / 7 * |x - y| := by
    rw [div_le_iff₀ (by linarith)]
    nlinarith [abs_nonneg (x - y)]
  have h3 := inv_root_pi_le
  have h4 := abs_nonneg (x - y)
  calc 1 / √Real.pi * |gaussInt (x / √2) - gaussInt (y / √2)| ≤ 0.6 * (5 / 7 * |x - y|) := by
        apply mul_le_mul h3 (h1.trans h2) (abs_nonneg _) (by norm_num)
    _ ≤ 1 / 2 * |x - y| := by linarith

theorem standard_close (η u S y r z : ℝ) (hη0 : 0 < η) (hη1 : η ≤ 1 / 1000) (hS1 : 1.4 ≤ S) (hr1 : 1.39 ≤ r)
    (hre : |r - S| ≤ η * S) (hye2 : |y - u| ≤ η * |u|) (hze2 : |z - y / r| ≤ η * |y / r|) :
    |z - u / S| ≤ 3 * η * |u| ∧ |z| ≤ 0.73 * |u| := by
  have hr0 : 0 < r := by linarith
  have hau := abs_nonneg u
  have hyb : |y| ≤ 1.001 * |u| := by
    have := abs_add_le (y - u) u
    rw [sub_add_cancel] at this
    nlinarith
  have hyr : |y / r| ≤ 0.73 * |u| := by
    rw [abs_div, abs_of_pos hr0, div_le_iff₀ hr0]
    nlinarith
  have hA : |y / r - u / S| ≤ 2 * η * |u| := by
    have e : y / r - u / S = (y - u) / r + -(u * ((r - S) * (1 / (r * S)))) := by
      field_simp; ring
    rw [e]
    refine (abs_add_le _ _).trans ?_
    have t1 : |(y - u) / r| ≤ 0.73 * (η * |u|) := by
      rw [abs_div, abs_of_pos hr0, div_le_iff₀ hr0]
      have : 0 ≤ η * |u| := by positivity
      nlinarith
    have t2 : |u * ((r - S) * (1 / (r * S)))| ≤ |u| * (0.73 * η) := by
      rw [abs_mul]
      apply mul_le_mul_of_nonneg_left _ hau
      rw [abs_mul, abs_of_pos (by positivity : 0 < 1 / (r * S))]
      calc |r - S| * (1 / (r * S)) ≤ (η * S) * (1 / (r * S)) := by gcongr
        _ = η / r := by field_simp
        _ ≤ 0.73 * η := by rw [div_le_iff₀ hr0]; nlinarith
    rw [abs_neg]
    nlinarith
  have hzu : |z - u / S| ≤ 3 * η * |u| := by
    have := abs_sub_le z (y / r) (u / S)
    have h4 : η * |y / r| ≤ η * (0.73 * |u|) := by gcongr
    nlinarith
  have hzb : |z| ≤ 0.73 * |u| := by
    have := abs_add_le (z - u / S) (u / S)
    rw [sub_add_cancel] at this
    have h5 : |u / S| ≤ 0.72 * |u| := by
      rw [abs_div, abs_of_pos (by linarith : 0 < S), div_le_iff₀ (by linarith)]
      nlinarith
    nlinarith
  exact ⟨hzu, hzb⟩

/-- Error of `pnorm`, the part of the constant in terms of the integral; `u` is the exact standardised argument. -/
theorem pnorm_error_fine (ext : BdExt) (hs : SqrtOk ext) (hf : 1 ≤ ext.fuel) (x mean sd : Dec) (n B : ℕ) (h1 : 1 ≤ n) (hB : 1 ≤ B)
    (hsd : sd.val ≠ 0) (u : ℝ) (hu : u = (x.val - mean.val) / sd.val) (hx : u ^ 2 ≤ B) (hn : 8 * n + 9 ≤ 30001)
    (hn2 : 2 * n + 11 * B + 3 ≤ 30001) :
    ∃ d, Bd.pnorm ext x mean sd n = .ok d ∧ |(d.val : ℝ) - normalCdf u| ≤
      (1 / 10 * piE n + 1 / 10 ^ 97) * |gaussInt (u / √2)| + |u| * (5 * (1 / 10 ^ 97) + 11 / 25 * expBound B n (2 * n + 11 * B + 3)) := by
  obtain ⟨y, hy, hye⟩ := div_real (x - mean) sd hsd
  have hyu : (((x - mean).val : ℚ) : ℝ) / sd.val = u := by rw [hu, val_sub]; push_cast; rfl
  rw [hyu] at hye
  obtain ⟨r, hr, hre⟩ := hs.ok Dec.two (by simp)
  have hv2 : ((Dec.two).val : ℝ) = 2 := by simp
  rw [hv2] at hre
  set S := √(2 : ℝ) with hS
  have hS1 : 1.4 ≤ S := Real.le_sqrt_of_sq_le (by norm_num)
  have hS2 : S ^ 2 = 2 := Real.sq_sqrt (by norm_num)
  have hη0 : (0 : ℝ) < 1 / 10 ^ 98 := by positivity
  have hη1 : (1 : ℝ) / 10 ^ 98 ≤ 1 / 1000 := by norm_num
  have hη2 : (1 : ℝ) / 10 ^ 99 ≤ 1 / 10 ^ 98 := by norm_num
  have hye2 : |(y.val : ℝ) - u| ≤ 1 / 10 ^ 98 * |u| := hye.trans (by gcongr)
  generalize hη : (1 : ℝ) / 10 ^ 98 = η at *
  have hre' := abs_le.1 hre
  have hS3 : S ≤ 1.5 := by nlinarith
  have hr1 : (1.39 : ℝ) ≤ r.val := by nlinarith [hre'.1]
  have hrne : r.val ≠ 0 := by
    intro h
    rw [h] at hr1
    norm_num at hr1
  have hr0 : (0 : ℝ) < r.val := by linarith
  obtain ⟨z, hz, hze⟩ := div_real y r hrne
  have hze2 : |(z.val : ℝ) - y.val / r.val| ≤ η * |(y.val : ℝ) / r.val| := hze.trans (by gcongr)
  obtain ⟨hzu, hzb⟩ := standard_close η u S y.val r.val z.val hη0 hη1 hS1 hr1 hre hye2 hze2
  have hzB : z.val ^ 2 ≤ B := by
    have h6 : (z.val : ℝ) ^ 2 ≤ B := by
      calc (z.val : ℝ) ^ 2 = |(z.val : ℝ)| ^ 2 := (sq_abs _).symm
        _ ≤ |u| ^ 2 := pow_le_pow_left₀ (abs_nonneg _) (hzb.trans (by linarith [abs_nonneg u])) 2
        _ = u ^ 2 := sq_abs _
        _ ≤ B := hx
    exact_mod_cast h6
  obtain ⟨e, he, hee⟩ := erf_error_fine ext hs hf z n B h1 hB hzB hn hn2
  refine ⟨(e + Dec.one) * Dec.half, ?_, ?_⟩
  · unfold Bd.pnorm
    simp only [hy, hr, hz, he, Res.ok_bind, Res.unwrapOpt]
    rfl
  rw [normalCdf_eq]
  have hhalf : (Dec.half.val : ℝ) = 1 / 2 := by norm_num [Dec.half, Dec.val]
  have e1 : ((((e + Dec.one) * Dec.half).val : ℚ) : ℝ) - (1 / 2 + 1 / √Real.pi * gaussInt (u / S)) =
      1 / 2 * (e.val - 2 / √Real.pi * gaussInt z.val) + 1 / √Real.pi * (gaussInt z.val - gaussInt (u / S)) := by
    rw [val_mul, val_add, val_one]; push_cast; rw [hhalf]; ring
  rw [e1]
  have t := abs_add_le (1 / 2 * ((e.val : ℝ) - 2 / √Real.pi * gaussInt z.val)) (1 / √Real.pi * (gaussInt z.val - gaussInt (u / S)))
  have hp := inv_root_pi_le
  have hp0 : 0 ≤ 1 / √Real.pi := by positivity
  have hl := gaussInt_lipschitz z.val (u / S)
  have t2 : |1 / √Real.pi * (gaussInt z.val - gaussInt (u / S))| ≤ 0.6 * (3 * η * |u|) := by
    rw [abs_mul, abs_of_nonneg hp0]
    exact mul_le_mul hp (hl.trans hzu) (abs_nonneg _) (by norm_num)
  have hη97 : (1 : ℝ) / 10 ^ 97 = 10 * η := by rw [← hη]; norm_num
  rw [hη97] at hee
  have hEpos : 0 ≤ expBound B n (2 * n + 11 * B + 3) := by
    unfold expBound
    have := Real.exp_pos (B : ℝ)
    positivity
  have hPpos : 0 ≤ piE n := (piE_pos n).le
  generalize expBound B n (2 * n + 11 * B + 3) = E at *
  have hgz : |gaussInt z.val| ≤ |gaussInt (u / S)| + 3 * η * |u| := by
    have := abs_add_le (gaussInt z.val - gaussInt (u / S)) (gaussInt (u / S))
    rw [sub_add_cancel] at this
    linarith [hl.trans hzu]
  have hP1 := piE_le n h1
  have hu0 := abs_nonneg u
  have t1 : |1 / 2 * ((e.val : ℝ) - 2 / √Real.pi * gaussInt z.val)| ≤
      1 / 2 * ((1 / 5 * piE n + 10 * η) * (|gaussInt (u / S)| + 3 * η * |u|) + 6 / 5 * (0.73 * |u| * E)) := by
    rw [abs_mul, abs_of_pos (by norm_num : (0 : ℝ) < 1 / 2)]
    have a1 : (1 / 5 * piE n + 10 * η) * |gaussInt z.val| ≤ (1 / 5 * piE n + 10 * η) * (|gaussInt (u / S)| + 3 * η * |u|) := by gcongr
    have a2 : |(z.val : ℝ)| * E ≤ 0.73 * |u| * E := by gcongr
    linarith
  have hηu : 0 ≤ η * |u| := by positivity
  have a3 : (1 / 5 * piE n + 10 * η) * (3 * η * |u|) ≤ 1 * (3 * η * |u|) := by
    apply mul_le_mul_of_nonneg_right _ (by positivity); linarith
  have a4 : 0 ≤ |u| * E := by positivity
  have a5 : 0 ≤ η * |gaussInt (u / S)| := by positivity
  rw [hη97]
  nlinarith

/-- Error of `pnorm`; `u` is the exact standardised argument. -/
theorem pnorm_error (ext : BdExt) (hs : SqrtOk ext) (hf : 1 ≤ ext.fuel) (x mean sd : Dec) (n B : ℕ) (h1 : 1 ≤ n) (hB : 1 ≤ B)
    (hsd : sd.val ≠ 0) (u : ℝ) (hu : u = (x.val - mean.val) / sd.val) (hx : u ^ 2 ≤ B) (hn : 8 * n + 9 ≤ 30001)
    (hn2 : 2 * n + 11 * B + 3 ≤ 30001) :
    ∃ d, Bd.pnorm ext x mean sd n = .ok d ∧ |(d.val : ℝ) - normalCdf u| ≤
      |u| * (1 / 10 * piE n + 1 / 10 ^ 96 + 3 / 5 * expBound B n (2 * n + 11 * B + 3)) := by
  obtain ⟨d, hd, he⟩ := pnorm_error_fine ext hs hf x mean sd n B h1 hB hsd u hu hx hn hn2
  refine ⟨d, hd, he.trans ?_⟩
  have hg : |gaussInt (u / √2)| ≤ 0.8 * |u| := by
    refine (gaussInt_abs_le _).trans ?_
    have hS1 : (1.4 : ℝ) ≤ √2 := Real.le_sqrt_of_sq_le (by norm_num)
    rw [abs_div, abs_of_nonneg (Real.sqrt_nonneg 2), div_le_iff₀ (by linarith)]
    nlinarith [abs_nonneg u]
  have hP := (piE_pos n).le
  have hE : 0 ≤ expBound B n (2 * n + 11 * B + 3) := by unfold expBound; have := Real.exp_pos (B : ℝ); positivity
  have hu0 := abs_nonneg u
  have h2 : (1 / 10 * piE n + 1 / 10 ^ 97) * |gaussInt (u / √2)| ≤ (1 / 10 * piE n + 1 / 10 ^ 97) * (0.8 * |u|) := by gcongr
  have h3 : 0 ≤ piE n * |u| := by positivity
  have h4 : 0 ≤ |u| * expBound B n (2 * n + 11 * B + 3) := by positivity
  have h5 : (1 : ℝ) / 10 ^ 96 = 10 * (1 / 10 ^ 97) := by norm_num
  rw [h5]
  have h7 : 0 ≤ (1 : ℝ) / 10 ^ 97 * |u| := by positivity
  generalize (1 : ℝ) / 10 ^ 97 = η at *
  have h6 : |u| * (5 * η + 11 / 25 * expBound B n (2 * n + 11 * B + 3)) = 5 * (η * |u|) + 11 / 25 * (|u| * expBound B n (2 * n + 11 * B + 3)) := by ring
  nlinarith

set_option maxHeartbeats 800000 in
/-- The computed factor `1/√(2π)`. -/
theorem one_over_root_two_pi (ext : BdExt) (hs : SqrtOk ext) (hf : 1 ≤ ext.fuel) (n : ℕ) (h1 : 1 ≤ n) (hn : 8 * n + 9 ≤ 30001) :
    ∃ k, Bd.oneOverRootTwoPi ext n = .ok k ∧
      |(k.val : ℝ) - 1 / √(2 * Real.pi)| ≤ 1 / 10 * piE n + 1 / 10 ^ 97 ∧ |(k.val : ℝ)| ≤ 1 / 2 := by
  obtain ⟨p, hp, hpe⟩ := pi_error ext hf n hn
  have hpE := piE_le n h1
  have hpi3 := Real.pi_gt_d2
  have hpi4 := Real.pi_lt_d2
  have hpe' := abs_le.1 hpe
  have hp3 : (3.09 : ℝ) ≤ p.val := by linarith [hpe'.1]
  have hp4 : (p.val : ℝ) ≤ 3.2 := by linarith [hpe'.2]
  have hv : (((Dec.two * p).val : ℚ) : ℝ) = 2 * p.val := by rw [val_mul]; push_cast; simp
  obtain ⟨q, hq, hqe⟩ := div_real Dec.one (Dec.two * p) (by
    intro h
    rw [h] at hv
    push_cast at hv
    linarith)
  rw [hv] at hqe
  have hv1 : ((Dec.one).val : ℝ) = 1 := by simp
  rw [hv1] at hqe
  have hη0 : (0 : ℝ) < 1 / 10 ^ 98 := by positivity
  have hη1 : (1 : ℝ) / 10 ^ 98 ≤ 1 / 1000 := by norm_num
  have hη2 : (1 : ℝ) / 10 ^ 99 ≤ 1 / 10 ^ 98 := by norm_num
  have hη3 : (1 : ℝ) / 10 ^ 97 = 10 * (1 / 10 ^ 98) := by norm_num
  have hw : 0 < 1 / (2 * (p.val : ℝ)) := by positivity
  have hw1 : 1 / (2 * (p.val : ℝ)) ≤ 0.17 := by rw [div_le_iff₀ (by linarith)]; linarith
  have hw2 : 0.156 ≤ 1 / (2 * (p.val : ℝ)) := by rw [le_div_iff₀ (by linarith)]; linarith
  rw [abs_of_pos hw] at hqe
  have hqe2 : |(q.val : ℝ) - 1 / (2 * p.val)| ≤ 1 / 10 ^ 98 * 0.17 := hqe.trans (by gcongr)
  have hqe' := abs_le.1 hqe2
  have hq0 : (0.15 : ℝ) ≤ q.val := by linarith [hqe'.1]
  have hq1 : (q.val : ℝ) ≤ 0.18 := by linarith [hqe'.2]
  obtain ⟨k, hk, hke⟩ := hs.ok q (by
    have : (0 : ℝ) ≤ q.val := by linarith
    exact_mod_cast this)
  rw [hη3]
  generalize (1 : ℝ) / 10 ^ 98 = η at *
  set Q := √(q.val : ℝ) with hQ
  have hQ2 : Q ^ 2 = q.val := Real.sq_sqrt (by linarith)
  have hQ0 : 0.38 ≤ Q := Real.le_sqrt_of_sq_le (by norm_num; linarith)
  have hQ1 : Q ≤ 0.43 := by
    rw [hQ]; apply Real.sqrt_le_iff.2; norm_num; linarith
  have hR : 1 / √(2 * Real.pi) = √(1 / (2 * Real.pi)) := by rw [Real.sqrt_div (by norm_num), Real.sqrt_one]
  rw [hR]
  have hwp : 0.156 ≤ 1 / (2 * Real.pi) := by rw [le_div_iff₀ (by linarith)]; linarith
  set R := √(1 / (2 * Real.pi)) with hRd
  have hR2 : R ^ 2 = 1 / (2 * Real.pi) := Real.sq_sqrt (by linarith)
  have hR0 : 0.38 ≤ R := Real.le_sqrt_of_sq_le (le_trans (by norm_num) hwp)
  have hd : |(q.val : ℝ) - 1 / (2 * Real.pi)| ≤ η * 0.17 + 0.06 * piE n := by
    refine (abs_sub_le _ (1 / (2 * (p.val : ℝ))) _).trans ?_
    have e : 1 / (2 * (p.val : ℝ)) - 1 / (2 * Real.pi) = (Real.pi - p.val) * (1 / (2 * p.val * Real.pi)) := by
      have := Real.pi_pos.ne'
      have : (p.val : ℝ) ≠ 0 := by linarith
      field_simp
    have h7 : 1 / (2 * (p.val : ℝ) * Real.pi) ≤ 0.06 := by
      rw [div_le_iff₀ (by nlinarith)]; nlinarith
    have h8 : 0 ≤ 1 / (2 * (p.val : ℝ) * Real.pi) := by have := Real.pi_pos; positivity
    rw [e, abs_mul, abs_of_nonneg h8, abs_sub_comm Real.pi]
    have := mul_le_mul hpe h7 h8 (piE_pos n).le
    linarith
  have hQR : |Q - R| ≤ 1.4 * (η * 0.17 + 0.06 * piE n) := by
    have e : (Q - R) * (Q + R) = q.val - 1 / (2 * Real.pi) := by rw [← hQ2, ← hR2]; ring
    rw [← e, abs_mul, abs_of_pos (by linarith : 0 < Q + R)] at hd
    have h0 := abs_nonneg (Q - R)
    have h7 : |Q - R| * 0.76 ≤ |Q - R| * (Q + R) := mul_le_mul_of_nonneg_left (by linarith) h0
    have h8 := (piE_pos n).le
    linarith
  have hkb : |(k.val : ℝ) - Q| ≤ η * 0.43 := hke.trans (by gcongr)
  refine ⟨k, ?_, ?_, ?_⟩
  · unfold Bd.oneOverRootTwoPi
    simp only [hp, hq, Res.ok_bind]
    unfold Bd.sqrt
    rw [hk]; rfl
  · refine (abs_sub_le _ Q _).trans ?_
    have := (piE_pos n).le
    linarith
  · have := abs_add_le ((k.val : ℝ) - Q) Q
    rw [sub_add_cancel, abs_of_pos (by linarith : 0 < Q)] at this
    linarith

theorem exp_sub_le (a b : ℝ) (ha : a ≤ 0) (hb : b ≤ 0) : |Real.exp a - Real.exp b| ≤ |a - b| := by
  wlog h : b ≤ a generalizing a b
  · rw [abs_sub_comm, abs_sub_comm a]; exact this b a hb ha (by linarith)
  rw [abs_of_nonneg (sub_nonneg.2 h), abs_of_nonneg (sub_nonneg.2 (Real.exp_le_exp.2 h))]
  have h1 := Real.add_one_le_exp (b - a)
  have h2 : Real.exp b = Real.exp a * Real.exp (b - a) := by rw [← Real.exp_add]; congr 1; ring
  have h3 : Real.exp a ≤ 1 := Real.exp_le_one_iff.2 ha
  have h4 := Real.exp_pos a
  rw [h2]
  nlinarith

set_option maxHeartbeats 1600000 in
/-- Error of `dnorm`; `u` is the exact standardised argument. -/
theorem dnorm_error (ext : BdExt) (hs : SqrtOk ext) (hf : 1 ≤ ext.fuel) (x mean sd : Dec) (n B : ℕ) (h1 : 1 ≤ n) (hB : 1 ≤ B)
    (hsd : sd.val ≠ 0) (u : ℝ) (hu : u = (x.val - mean.val) / sd.val) (hx : u ^ 2 ≤ B) (hn : 8 * n + 9 ≤ 30001)
    (hn2 : 2 * n + 11 * B + 3 ≤ 30001) :
    ∃ d, Bd.dnorm ext x mean sd n = .ok d ∧ |(d.val : ℝ) - normalPdf u / sd.val| ≤
      1 / |(sd.val : ℝ)| * (1 / 10 * piE n + (B + 1) / 10 ^ 96 + 3 / 5 * expBound B n (2 * n + 11 * B + 3)) := by
  obtain ⟨y, hy, hye⟩ := div_real (x - mean) sd hsd
  have hyu : (((x - mean).val : ℚ) : ℝ) / sd.val = u := by rw [hu, val_sub]; push_cast; rfl
  rw [hyu] at hye
  obtain ⟨k, hk, hke, hkb⟩ := one_over_root_two_pi ext hs hf n h1 hn
  have hhalf : (Dec.half.val : ℝ) = 1 / 2 := by norm_num [Dec.half, Dec.val]
  have hv : (((-y * y * Dec.half).val : ℚ) : ℝ) = -(y.val : ℝ) ^ 2 / 2 := by
    rw [val_mul, val_mul, val_neg]; push_cast; rw [hhalf]; ring
  have hη0 : (0 : ℝ) < 1 / 10 ^ 99 := by positivity
  have hη1 : (1 : ℝ) / 10 ^ 99 ≤ 1 / 1000 := by norm_num
  have hη3 : (1 : ℝ) / 10 ^ 97 = 100 * (1 / 10 ^ 99) := by norm_num
  have hη4 : ((B : ℝ) + 1) / 10 ^ 96 = 1000 * (1 / 10 ^ 99) * (B + 1) := by ring
  rw [hη3] at hke
  rw [hη4]
  have hau := abs_nonneg u
  have hyb : |(y.val : ℝ)| ≤ 1.001 * |u| := by
    have := abs_add_le ((y.val : ℝ) - u) u
    rw [sub_add_cancel] at this
    nlinarith
  have hsq : |u| ^ 2 = u ^ 2 := sq_abs u
  have hy2 : (y.val : ℝ) ^ 2 ≤ 1.01 * B := by
    rw [← sq_abs (y.val : ℝ)]
    nlinarith [abs_nonneg (y.val : ℝ)]
  have hdiff : |-(y.val : ℝ) ^ 2 / 2 - -u ^ 2 / 2| ≤ 2 * (1 / 10 ^ 99) * (B : ℝ) := by
    have e : -(y.val : ℝ) ^ 2 / 2 - -u ^ 2 / 2 = -((y.val - u) * ((y.val + u) / 2)) := by ring
    rw [e, abs_neg, abs_mul]
    have h9 : |((y.val : ℝ) + u) / 2| ≤ 1.1 * |u| := by
      rw [abs_div, abs_of_pos (by norm_num : (0 : ℝ) < 2)]
      have := abs_add_le (y.val : ℝ) u
      linarith
    calc |(y.val : ℝ) - u| * |((y.val : ℝ) + u) / 2| ≤ (1 / 10 ^ 99 * |u|) * (1.1 * |u|) := by gcongr
      _ = 1.1 * (1 / 10 ^ 99) * u ^ 2 := by rw [← hsq]; ring
      _ ≤ 2 * (1 / 10 ^ 99) * (B : ℝ) := by nlinarith
  obtain ⟨e, he, hee⟩ := C23_exp_error (-y * y * Dec.half) n B hB (by
    have : |(((-y * y * Dec.half).val : ℚ) : ℝ)| ≤ B := by
      rw [hv, abs_le]
      constructor <;> nlinarith [sq_nonneg (y.val : ℝ)]
    exact_mod_cast this) hn2
  rw [hv] at hee
  obtain ⟨d, hd, hde⟩ := div_real (k * e) sd hsd
  have hvk : (((k * e).val : ℚ) : ℝ) = k.val * e.val := by rw [val_mul]; push_cast; rfl
  rw [hvk] at hde
  refine ⟨d, ?_, ?_⟩
  · unfold Bd.dnorm
    simp only [hy, hk, he, hd, Res.ok_bind]
  unfold normalPdf
  set R := 1 / √(2 * Real.pi) with hR
  have hE0 : 0 ≤ expBound B n (2 * n + 11 * B + 3) := (abs_nonneg _).trans hee
  have hP0 := (piE_pos n).le
  generalize hEg : expBound B n (2 * n + 11 * B + 3) = E at *
  generalize (1 : ℝ) / 10 ^ 99 = η at *
  set s := |(sd.val : ℝ)| with hs'
  have hs0 : 0 < s := abs_pos.2 (by exact_mod_cast hsd)
  have hg1 : Real.exp (-u ^ 2 / 2) ≤ 1 := Real.exp_le_one_iff.2 (by nlinarith [sq_nonneg u])
  have hg0 := Real.exp_pos (-u ^ 2 / 2)
  have hy1 : Real.exp (-(y.val : ℝ) ^ 2 / 2) ≤ 1 := Real.exp_le_one_iff.2 (by nlinarith [sq_nonneg (y.val : ℝ)])
  have hy0 := Real.exp_pos (-(y.val : ℝ) ^ 2 / 2)
  have hexp := (exp_sub_le (-(y.val : ℝ) ^ 2 / 2) (-u ^ 2 / 2) (by nlinarith [sq_nonneg (y.val : ℝ)]) (by nlinarith [sq_nonneg u])).trans hdiff
  have hB1 : (1 : ℝ) ≤ B := by exact_mod_cast hB
  have hmain : |(k.val : ℝ) * e.val - R * Real.exp (-u ^ 2 / 2)| ≤ 1 / 10 * piE n + 100 * η + 1 / 2 * E + η * B := by
    have e1 : (k.val : ℝ) * e.val - R * Real.exp (-u ^ 2 / 2) =
        k.val * (e.val - Real.exp (-(y.val : ℝ) ^ 2 / 2)) + k.val * (Real.exp (-(y.val : ℝ) ^ 2 / 2) - Real.exp (-u ^ 2 / 2)) +
          (k.val - R) * Real.exp (-u ^ 2 / 2) := by ring
    rw [e1]
    refine (abs_add_le _ _).trans ?_
    have a1 := abs_add_le ((k.val : ℝ) * (e.val - Real.exp (-(y.val : ℝ) ^ 2 / 2))) (k.val * (Real.exp (-(y.val : ℝ) ^ 2 / 2) - Real.exp (-u ^ 2 / 2)))
    have a2 : |(k.val : ℝ) * (e.val - Real.exp (-(y.val : ℝ) ^ 2 / 2))| ≤ 1 / 2 * E := by
      rw [abs_mul]; exact mul_le_mul hkb hee (abs_nonneg _) (by norm_num)
    have a3 : |(k.val : ℝ) * (Real.exp (-(y.val : ℝ) ^ 2 / 2) - Real.exp (-u ^ 2 / 2))| ≤ 1 / 2 * (2 * η * B) := by
      rw [abs_mul]; exact mul_le_mul hkb hexp (abs_nonneg _) (by norm_num)
    have a4 : |((k.val : ℝ) - R) * Real.exp (-u ^ 2 / 2)| ≤ 1 / 10 * piE n + 100 * η := by
      rw [abs_mul, abs_of_pos hg0]
      have := mul_le_mul hke hg1 hg0.le ((abs_nonneg _).trans hke)
      linarith
    linarith
  have hke2 : |(k.val : ℝ) * e.val| ≤ 1 / 2 * (1 + E) := by
    rw [abs_mul]
    apply mul_le_mul hkb _ (abs_nonneg _) (by norm_num)
    have := abs_add_le ((e.val : ℝ) - Real.exp (-(y.val : ℝ) ^ 2 / 2)) (Real.exp (-(y.val : ℝ) ^ 2 / 2))
    rw [sub_add_cancel, abs_of_pos hy0] at this
    linarith
  refine (abs_sub_le _ ((k.val : ℝ) * e.val / sd.val) _).trans ?_
  have e2 : (k.val : ℝ) * e.val / sd.val - R * Real.exp (-u ^ 2 / 2) / sd.val = (k.val * e.val - R * Real.exp (-u ^ 2 / 2)) / sd.val := by ring
  rw [e2, abs_div ((k.val : ℝ) * e.val - R * Real.exp (-u ^ 2 / 2))]
  rw [abs_div ((k.val : ℝ) * e.val)] at hde
  have e3 : ∀ w : ℝ, w / |(sd.val : ℝ)| = 1 / s * w := fun w => by rw [hs']; ring
  rw [e3] at hde
  rw [e3]
  have his : 0 < 1 / s := by positivity
  have : |(d.val : ℝ) - k.val * e.val / sd.val| ≤ 1 / s * (η * (1 / 2 * (1 + E))) := by
    refine hde.trans ?_
    have : 1 / s * |(k.val : ℝ) * e.val| ≤ 1 / s * (1 / 2 * (1 + E)) := by gcongr
    nlinarith
  rw [← mul_assoc] at *
  have h10 : 1 / s * |(k.val : ℝ) * e.val - R * Real.exp (-u ^ 2 / 2)| ≤ 1 / s * (1 / 10 * piE n + 100 * η + 1 / 2 * E + η * B) := by gcongr
  have h11 : η * (1 / 2 * (1 + E)) + (1 / 10 * piE n + 100 * η + 1 / 2 * E + η * B) ≤ 1 / 10 * piE n + 1000 * η * (B + 1) + 3 / 5 * E := by
    nlinarith
  have h12 := mul_le_mul_of_nonneg_left h11 his.le
  nlinarith

end Bd
end Verif

import Verif.Lemmas.ChebSeries
import Verif.Lemmas.ArcsinSeries
import Verif.Lemmas.TanSeries
import Mathlib.Analysis.SpecialFunctions.Trigonometric.Series
import Mathlib.Analysis.SpecialFunctions.Complex.Arctan
import Mathlib.Analysis.SpecialFunctions.Log.Deriv
import Mathlib.Analysis.SpecialFunctions.Log.Base
import Mathlib.Analysis.SpecialFunctions.Pow.Real
import Mathlib.Analysis.Complex.ExponentialBounds
import Mathlib.Analysis.Real.Pi.Bounds

/-!
# Polynomials with small terms close to the targets of the generators
-/

namespace Verif
open Polynomial Polynomial.Chebyshev

theorem NearPoly.mono {f : ℝ → ℝ} {N : ℕ} {w τ A τ' A' : ℝ} (h : NearPoly f N w τ A) (hτ : τ ≤ τ') (hA : A ≤ A') : NearPoly f N w τ' A' := by
  intro γ hγ
  obtain ⟨Q, h1, h2, h3⟩ := h γ hγ
  exact ⟨Q, h1, fun t ht => (h2 t ht).trans (by linarith), h3.trans hA⟩

theorem NearPoly.add_const {f : ℝ → ℝ} {N : ℕ} {w τ A : ℝ} (h : NearPoly f N w τ A) (hw : 0 ≤ w) (c : ℝ) : NearPoly (fun t => f t + c) N w τ (A + |c|) := by
  intro γ hγ
  obtain ⟨Q, h1, h2, h3⟩ := h γ hγ
  refine ⟨Q + C c, lt_of_le_of_lt (degree_add_le _ _) (max_lt h1 (lt_of_le_of_lt degree_C_le (by exact_mod_cast Nat.succ_pos N))), fun t ht => ?_, ?_⟩
  · rw [eval_add, eval_C, add_sub_add_right_eq_sub]
    exact h2 t ht
  · refine (absSum_add _ _ _ hw).trans (add_le_add h3 (le_of_eq ?_))
    unfold absSum
    rw [Finset.sum_eq_single 0]
    · simp
    · intro i _ hi; rw [coeff_C_ne_zero hi]; simp
    · intro hi; exact absurd (Finset.mem_range.2 (Nat.succ_pos N)) hi

theorem sqrt_two_bounds : (14142 / 10000 : ℝ) ≤ √2 ∧ √2 ≤ 14143 / 10000 :=
  ⟨Real.le_sqrt_of_sq_le (by norm_num), Real.sqrt_le_iff.2 ⟨by norm_num, by norm_num⟩⟩

theorem silver_bounds : (24142 / 10000 : ℝ) ≤ silver ∧ silver ≤ 24143 / 10000 := by
  unfold silver
  have := sqrt_two_bounds
  constructor <;> linarith

/-! ### Sine and cosine of turns -/

theorem exp_twelve : Real.exp 12 ≤ 162790 := by
  calc Real.exp 12 = Real.exp 1 ^ 12 := by rw [← Real.exp_nat_mul]; norm_num
    _ ≤ 2.7182818286 ^ 12 := pow_le_pow_left₀ (Real.exp_pos _).le Real.exp_one_lt_d9.le 12
    _ ≤ 162790 := by norm_num

theorem exp_pi_le : Real.exp Real.pi ≤ 23 + 1 / 2 := by
  have h1 : Real.exp Real.pi ≤ Real.exp (3 + 1 / 7) := Real.exp_le_exp.2 (by linarith [Real.pi_lt_d4])
  have h2 : Real.exp (1 / 7) ≤ 1 / (1 - 1 / 7) := by
    have := Real.one_sub_le_exp_neg (1 / 7)
    rw [Real.exp_neg] at this
    rw [le_div_iff₀ (by norm_num)]
    have h3 := mul_le_mul_of_nonneg_left this (Real.exp_pos (1 / 7)).le
    rwa [mul_inv_cancel₀ (Real.exp_pos _).ne'] at h3
  have h3 : Real.exp 3 ≤ 20.0856 := by
    calc Real.exp 3 = Real.exp 1 ^ 3 := by rw [← Real.exp_nat_mul]; norm_num
      _ ≤ 2.7182818286 ^ 3 := pow_le_pow_left₀ (Real.exp_pos _).le Real.exp_one_lt_d9.le 3
      _ ≤ _ := by norm_num
  have h4 : Real.exp (3 + 1 / 7) ≤ 20.0856 * (1 / (1 - 1 / 7)) := by
    rw [Real.exp_add]
    exact mul_le_mul h3 h2 (Real.exp_pos _).le (by norm_num)
  exact h1.trans (h4.trans (by norm_num))

theorem joukowski_turns : 2 * Real.pi * (1 / 2 * ((15 / 2 + (15 / 2 : ℝ)⁻¹) / 2)) ≤ 12 := by
  have := Real.pi_lt_d4
  norm_num
  linarith

theorem turns_tail (N : ℕ) {S₀ S : ℝ} (h0 : S₀ ≤ 12) (h1 : S ≤ 81400) (hS0 : 0 ≤ S) :
    2 / (15 / 2 : ℝ) ^ (N + 1) * S ≤ 162800 / (15 / 2) ^ (N + 1) ∧
    S₀ + 2 * (√2 / ((15 / 2 + (15 / 2 : ℝ)⁻¹) / 2)) ^ (N + 1) * S ≤ 12 + 162800 * (371 / 1000) ^ (N + 1) := by
  constructor
  · rw [div_mul_eq_mul_div]
    gcongr
    linarith
  · have h2 : √2 / ((15 / 2 + (15 / 2 : ℝ)⁻¹) / 2) ≤ 371 / 1000 := by
      rw [div_le_iff₀ (by norm_num)]
      have := sqrt_two_bounds.2
      norm_num at this ⊢
      linarith
    have h3 : (√2 / ((15 / 2 + (15 / 2 : ℝ)⁻¹) / 2)) ^ (N + 1) ≤ (371 / 1000) ^ (N + 1) := pow_le_pow_left₀ (by positivity) h2 _
    calc S₀ + 2 * (√2 / ((15 / 2 + (15 / 2 : ℝ)⁻¹) / 2)) ^ (N + 1) * S ≤ 12 + 2 * (371 / 1000) ^ (N + 1) * 81400 := by gcongr
      _ = _ := by ring

theorem silver_le_turns : silver ≤ 15 / 2 := silver_bounds.2.trans (by norm_num)

theorem nearPoly_sin (N : ℕ) : NearPoly (fun x => Real.sin (2 * Real.pi * x)) N (1 / 2) (162800 / (15 / 2) ^ (N + 1)) (12 + 162800 * (371 / 1000) ^ (N + 1)) := by
  have hpi := Real.pi_pos
  have hc : ∀ (y : ℝ) (j : ℕ), |(-1) ^ j * (2 * Real.pi) ^ (2 * j + 1) / ((2 * j + 1).factorial : ℝ)| * y ^ (2 * j + 1) = (2 * Real.pi * y) ^ (2 * j + 1) / ((2 * j + 1).factorial : ℝ) := by
    intro y j
    rw [abs_div, abs_mul, abs_pow, abs_neg, abs_one, one_pow, one_mul, abs_of_pos (by positivity), abs_of_pos (by positivity), mul_pow]
    ring
  have key := nearPoly_of_series (fun x => Real.sin (2 * Real.pi * x)) (fun j : ℕ => (-1) ^ j * (2 * Real.pi) ^ (2 * j + 1) / ((2 * j + 1).factorial : ℝ)) (fun j => 2 * j + 1) N
    (ρ := 15 / 2) (w := 1 / 2) (S₀ := Real.sinh (2 * Real.pi * (1 / 2))) (S := Real.sinh (2 * Real.pi * (1 / 2 * ((15 / 2 + (15 / 2 : ℝ)⁻¹) / 2)))) silver_le_turns (by norm_num)
    (fun t _ => by
      refine (Real.hasSum_sin (2 * Real.pi * t)).congr_fun ?_
      intro j
      rw [mul_pow (2 * Real.pi) t]; ring)
    (by simp only [hc]; exact Real.hasSum_sinh _) (by simp only [hc]; exact Real.hasSum_sinh _)
  have hs : ∀ x, Real.sinh x ≤ Real.exp x / 2 := fun x => by rw [Real.sinh_eq]; linarith [Real.exp_pos (-x)]
  have h0 : Real.sinh (2 * Real.pi * (1 / 2)) ≤ 12 := by
    refine (hs _).trans ?_
    rw [show 2 * Real.pi * (1 / 2) = Real.pi by ring]
    linarith [exp_pi_le]
  have h1 : Real.sinh (2 * Real.pi * (1 / 2 * ((15 / 2 + (15 / 2 : ℝ)⁻¹) / 2))) ≤ 81400 := by
    refine (hs _).trans ?_
    have := Real.exp_le_exp.2 joukowski_turns
    linarith [exp_twelve]
  have h2 : 0 ≤ Real.sinh (2 * Real.pi * (1 / 2 * ((15 / 2 + (15 / 2 : ℝ)⁻¹) / 2))) := Real.sinh_nonneg_iff.2 (by positivity)
  obtain ⟨t1, t2⟩ := turns_tail N h0 h1 h2
  exact key.mono t1 t2

theorem nearPoly_cos (N : ℕ) : NearPoly (fun x => Real.cos (2 * Real.pi * x)) N (1 / 2) (162800 / (15 / 2) ^ (N + 1)) (12 + 162800 * (371 / 1000) ^ (N + 1)) := by
  have hpi := Real.pi_pos
  have hc : ∀ (y : ℝ) (j : ℕ), |(-1) ^ j * (2 * Real.pi) ^ (2 * j) / ((2 * j).factorial : ℝ)| * y ^ (2 * j) = (2 * Real.pi * y) ^ (2 * j) / ((2 * j).factorial : ℝ) := by
    intro y j
    rw [abs_div, abs_mul, abs_pow, abs_neg, abs_one, one_pow, one_mul, abs_of_pos (by positivity), abs_of_pos (by positivity), mul_pow]
    ring
  have key := nearPoly_of_series (fun x => Real.cos (2 * Real.pi * x)) (fun j : ℕ => (-1) ^ j * (2 * Real.pi) ^ (2 * j) / ((2 * j).factorial : ℝ)) (fun j => 2 * j) N
    (ρ := 15 / 2) (w := 1 / 2) (S₀ := Real.cosh (2 * Real.pi * (1 / 2))) (S := Real.cosh (2 * Real.pi * (1 / 2 * ((15 / 2 + (15 / 2 : ℝ)⁻¹) / 2)))) silver_le_turns (by norm_num)
    (fun t _ => by
      refine (Real.hasSum_cos (2 * Real.pi * t)).congr_fun ?_
      intro j
      rw [mul_pow (2 * Real.pi) t]; ring)
    (by simp only [hc]; exact Real.hasSum_cosh _) (by simp only [hc]; exact Real.hasSum_cosh _)
  have hs : ∀ x, 0 ≤ x → Real.cosh x ≤ Real.exp x / 2 + 1 / 4 * (4 * (Real.exp (-x) / 2)) := fun x hx => by rw [Real.cosh_eq]; linarith
  have h0 : Real.cosh (2 * Real.pi * (1 / 2)) ≤ 12 := by
    refine (hs _ (by positivity)).trans ?_
    rw [show 2 * Real.pi * (1 / 2) = Real.pi by ring]
    have : Real.exp (-Real.pi) ≤ 1 / 2 := by
      have h1 := Real.add_one_le_exp Real.pi
      rw [Real.exp_neg, inv_le_comm₀ (Real.exp_pos _) (by norm_num)]
      linarith [Real.pi_gt_three]
    linarith [exp_pi_le]
  have h1 : Real.cosh (2 * Real.pi * (1 / 2 * ((15 / 2 + (15 / 2 : ℝ)⁻¹) / 2))) ≤ 81400 := by
    refine (hs _ (by positivity)).trans ?_
    have := Real.exp_le_exp.2 joukowski_turns
    have h2 : Real.exp (-(2 * Real.pi * (1 / 2 * ((15 / 2 + (15 / 2 : ℝ)⁻¹) / 2)))) ≤ 1 := Real.exp_le_one_iff.2 (neg_nonpos.2 (by positivity))
    linarith [exp_twelve]
  obtain ⟨t1, t2⟩ := turns_tail N h0 h1 (Real.cosh_pos _).le
  exact key.mono t1 t2

/-! ### Powers of two -/

theorem nearPoly_exp2 (N : ℕ) : NearPoly (fun x => (2 : ℝ) ^ x) N (1 / 2) (12 / 10 ^ (N + 1)) (3 / 2 + 12 * (29 / 100) ^ (N + 1)) := by
  have hl : 0 < Real.log 2 := Real.log_pos (by norm_num)
  have hser : ∀ y : ℝ, HasSum (fun j : ℕ => Real.log 2 ^ j / (j.factorial : ℝ) * y ^ j) ((2 : ℝ) ^ y) := by
    intro y
    have := NormedSpace.expSeries_div_hasSum_exp (Real.log 2 * y)
    rw [← Real.exp_eq_exp_ℝ, ← Real.rpow_def_of_pos (by norm_num)] at this
    refine this.congr_fun fun j => ?_
    rw [mul_pow]; ring
  have hc : ∀ j : ℕ, |Real.log 2 ^ j / (j.factorial : ℝ)| = Real.log 2 ^ j / (j.factorial : ℝ) := fun j => abs_of_pos (by positivity)
  have key := nearPoly_of_series (fun x => (2 : ℝ) ^ x) (fun j : ℕ => Real.log 2 ^ j / (j.factorial : ℝ)) (fun j => j) N
    (ρ := 10) (w := 1 / 2) (S₀ := (2 : ℝ) ^ (1 / 2 : ℝ)) (S := (2 : ℝ) ^ (1 / 2 * ((10 + (10 : ℝ)⁻¹) / 2) : ℝ)) (silver_bounds.2.trans (by norm_num)) (by norm_num)
    (fun t _ => hser t) (by simp only [hc]; exact hser _) (by simp only [hc]; exact hser _)
  have h0 : (2 : ℝ) ^ (1 / 2 : ℝ) ≤ 3 / 2 := by rw [← Real.sqrt_eq_rpow]; exact sqrt_two_bounds.2.trans (by norm_num)
  have h1 : (2 : ℝ) ^ (1 / 2 * ((10 + (10 : ℝ)⁻¹) / 2) : ℝ) ≤ 6 := by
    have : (2 : ℝ) ^ (1 / 2 * ((10 + (10 : ℝ)⁻¹) / 2) : ℝ) ≤ (2 : ℝ) ^ (1 / 2 * 5 + 1 / 2 * (1 / 16) : ℝ) := Real.rpow_le_rpow_of_exponent_le (by norm_num) (by norm_num)
    refine this.trans ?_
    have e : ((2 : ℝ) ^ (1 / 2 * 5 + 1 / 2 * (1 / 16) : ℝ)) ^ 32 ≤ 6 ^ 32 := by
      rw [← Real.rpow_natCast, ← Real.rpow_mul (by norm_num), show (1 / 2 * 5 + 1 / 2 * (1 / 16) : ℝ) * ((32 : ℕ) : ℝ) = ((81 : ℕ) : ℝ) by norm_num, Real.rpow_natCast]
      norm_num
    exact le_of_pow_le_pow_left₀ (by norm_num) (by norm_num) e
  have hp : (0 : ℝ) < (2 : ℝ) ^ (1 / 2 * ((10 + (10 : ℝ)⁻¹) / 2) : ℝ) := Real.rpow_pos_of_pos (by norm_num) _
  refine key.mono ?_ ?_
  · rw [div_mul_eq_mul_div]
    gcongr
    linarith
  · have h2 : √2 / ((10 + (10 : ℝ)⁻¹) / 2) ≤ 29 / 100 := by
      rw [div_le_iff₀ (by norm_num)]
      have := sqrt_two_bounds.2
      norm_num at this ⊢
      linarith
    have h3 : (√2 / ((10 + (10 : ℝ)⁻¹) / 2)) ^ (N + 1) ≤ (29 / 100) ^ (N + 1) := pow_le_pow_left₀ (by positivity) h2 _
    have h4 : (2 : ℝ) ^ (1 / 2 : ℝ) + 2 * (√2 / ((10 + (10 : ℝ)⁻¹) / 2)) ^ (N + 1) * (2 : ℝ) ^ (1 / 2 * ((10 + (10 : ℝ)⁻¹) / 2) : ℝ) ≤ 3 / 2 + 2 * (29 / 100) ^ (N + 1) * 6 := by gcongr
    linarith

theorem nearPoly_exp_m1 (N : ℕ) : NearPoly (fun x => (2 : ℝ) ^ x - 1) N (1 / 2) (12 / 10 ^ (N + 1)) (5 / 2 + 12 * (29 / 100) ^ (N + 1)) :=
  ((nearPoly_exp2 N).add_const (by norm_num) (-1)).mono le_rfl (by norm_num; linarith)

/-! ### Logarithm -/

theorem nearPoly_log2 (N : ℕ) : NearPoly (fun x => Real.logb 2 (x + 3 / 2)) N (1 / 2) (6 / 5 ^ (N + 1)) (6 / 5 + 6 * (544 / 1000) ^ (N + 1)) := by
  have hl : 0 < Real.log 2 := Real.log_pos (by norm_num)
  have hser : ∀ y : ℝ, |y| < 3 / 2 → HasSum (fun j : ℕ => (-1) ^ j * (2 / 3) ^ (j + 1) / ((j + 1) * Real.log 2) * y ^ (j + 1)) (Real.logb 2 (1 + 2 / 3 * y)) := by
    intro y hy
    have := (Real.hasSum_pow_div_log_of_abs_lt_one (x := -(2 / 3 * y)) (by rw [abs_neg, abs_mul, abs_of_pos (by norm_num)]; linarith)).mul_left (-(1 / Real.log 2))
    rw [show -(1 / Real.log 2) * -Real.log (1 - -(2 / 3 * y)) = Real.logb 2 (1 + 2 / 3 * y) by rw [Real.logb, sub_neg_eq_add]; ring] at this
    refine this.congr_fun fun j => ?_
    have hj : (0 : ℝ) < j + 1 := by positivity
    rw [neg_pow (2 / 3 * y), mul_pow, pow_succ (-1 : ℝ)]
    field_simp
  have habs : ∀ y : ℝ, 0 ≤ y → y < 3 / 2 → HasSum (fun j : ℕ => |(-1) ^ j * (2 / 3) ^ (j + 1) / ((j + 1) * Real.log 2)| * y ^ (j + 1)) (-Real.logb 2 (1 - 2 / 3 * y)) := by
    intro y hy0 hy
    have := (Real.hasSum_pow_div_log_of_abs_lt_one (x := 2 / 3 * y) (by rw [abs_of_nonneg (by positivity)]; linarith)).mul_left (1 / Real.log 2)
    rw [show 1 / Real.log 2 * -Real.log (1 - 2 / 3 * y) = -Real.logb 2 (1 - 2 / 3 * y) by rw [Real.logb]; ring] at this
    refine this.congr_fun fun j => ?_
    have hj : (0 : ℝ) < j + 1 := by positivity
    rw [abs_div, abs_mul, abs_pow, abs_neg, abs_one, one_pow, one_mul, abs_of_pos (by positivity), abs_of_pos (by positivity), mul_pow]
    field_simp
  have key := nearPoly_of_series (fun x => Real.logb 2 (1 + 2 / 3 * x)) (fun j : ℕ => (-1) ^ j * (2 / 3) ^ (j + 1) / ((j + 1) * Real.log 2)) (fun j => j + 1) N
    (ρ := 5) (w := 1 / 2) (S₀ := -Real.logb 2 (1 - 2 / 3 * (1 / 2))) (S := -Real.logb 2 (1 - 2 / 3 * (1 / 2 * ((5 + (5 : ℝ)⁻¹) / 2)))) (silver_bounds.2.trans (by norm_num)) (by norm_num)
    (fun t ht => hser t (by linarith)) (habs _ (by norm_num) (by norm_num)) (habs _ (by norm_num) (by norm_num))
  have l3 : Real.logb 2 (3 / 2) ≤ 3 / 5 := by
    rw [Real.logb_le_iff_le_rpow (by norm_num) (by norm_num)]
    have e : (3 / 2 : ℝ) ^ 5 ≤ ((2 : ℝ) ^ (3 / 5 : ℝ)) ^ 5 := by
      rw [← Real.rpow_natCast ((2 : ℝ) ^ (3 / 5 : ℝ)), ← Real.rpow_mul (by norm_num), show (3 / 5 : ℝ) * ((5 : ℕ) : ℝ) = ((3 : ℕ) : ℝ) by norm_num, Real.rpow_natCast]
      norm_num
    exact le_of_pow_le_pow_left₀ (by norm_num) (by positivity) e
  have l3' : 0 ≤ Real.logb 2 (3 / 2) := Real.logb_nonneg (by norm_num) (by norm_num)
  have h0 : -Real.logb 2 (1 - 2 / 3 * (1 / 2)) ≤ 3 / 5 := by
    rw [show (1 - 2 / 3 * (1 / 2) : ℝ) = (3 / 2)⁻¹ by norm_num, Real.logb_inv, neg_neg]
    exact l3
  have hv : (1 - 2 / 3 * (1 / 2 * ((5 + (5 : ℝ)⁻¹) / 2)) : ℝ) = (15 / 2)⁻¹ := by norm_num
  have h1 : -Real.logb 2 (1 - 2 / 3 * (1 / 2 * ((5 + (5 : ℝ)⁻¹) / 2))) ≤ 3 := by
    rw [hv, Real.logb_inv, neg_neg, Real.logb_le_iff_le_rpow (by norm_num) (by norm_num), show (3 : ℝ) = ((3 : ℕ) : ℝ) by norm_num, Real.rpow_natCast]
    norm_num
  have h2 : 0 ≤ -Real.logb 2 (1 - 2 / 3 * (1 / 2 * ((5 + (5 : ℝ)⁻¹) / 2))) := by
    rw [hv, Real.logb_inv, neg_neg]
    exact Real.logb_nonneg (by norm_num) (by norm_num)
  have hfin : NearPoly (fun x => Real.logb 2 (1 + 2 / 3 * x)) N (1 / 2) (6 / 5 ^ (N + 1)) (3 / 5 + 6 * (544 / 1000) ^ (N + 1)) := by
    refine key.mono ?_ ?_
    · rw [div_mul_eq_mul_div]
      gcongr
      linarith
    · have h3 : √2 / ((5 + (5 : ℝ)⁻¹) / 2) ≤ 544 / 1000 := by
        rw [div_le_iff₀ (by norm_num)]
        have := sqrt_two_bounds.2
        norm_num at this ⊢
        linarith
      have h4 : (√2 / ((5 + (5 : ℝ)⁻¹) / 2)) ^ (N + 1) ≤ (544 / 1000) ^ (N + 1) := pow_le_pow_left₀ (by positivity) h3 _
      refine le_trans (add_le_add h0 (mul_le_mul (mul_le_mul_of_nonneg_left h4 zero_le_two) h1 h2 (by positivity))) (le_of_eq (by ring))
  have hsum := (hfin.add_const (by norm_num) (Real.logb 2 (3 / 2))).mono (le_refl _) (show _ ≤ (6 / 5 + 6 * (544 / 1000) ^ (N + 1) : ℝ) by rw [abs_of_nonneg l3']; linarith)
  intro γ hγ
  obtain ⟨Q, q1, q2, q3⟩ := hsum γ hγ
  refine ⟨Q, q1, fun t ht => ?_, q3⟩
  have e : Real.logb 2 (t + 3 / 2) = Real.logb 2 (1 + 2 / 3 * t) + Real.logb 2 (3 / 2) := by
    have := abs_le.1 ht
    rw [← Real.logb_mul (by linarith) (by norm_num)]
    congr 1; ring
  show |_ - Real.logb 2 (t + 3 / 2)| ≤ _
  rw [e]
  exact q2 t ht

/-! ### Inverse sine -/

theorem nearPoly_arcsin (N : ℕ) : NearPoly Real.arcsin N (70710678118654752440 / 10 ^ 20) (3142 / 1000 / (24142 / 10000) ^ (N + 1)) 5 := by
  have habs : ∀ j, |isqrtCoeff j / (2 * j + 1)| = isqrtCoeff j / (2 * j + 1) := fun j => abs_of_pos (div_pos (isqrtCoeff_pos j) (by positivity))
  have hsq : (70710678118654752440 / 10 ^ 20 : ℝ) * √2 < 1 := by
    have : (√2 : ℝ) < 14142135623730950488016888 / 10 ^ 25 := by
      rw [Real.sqrt_lt' (by norm_num)]; norm_num
    nlinarith
  have key := nearPoly_of_series Real.arcsin (fun j : ℕ => isqrtCoeff j / (2 * j + 1)) (fun j => 2 * j + 1) N (ρ := silver) (w := 70710678118654752440 / 10 ^ 20)
    (S₀ := Real.arcsin (70710678118654752440 / 10 ^ 20)) (S := Real.arcsin (70710678118654752440 / 10 ^ 20 * √2)) le_rfl (by norm_num)
    (fun t ht => hasSum_arcsin (ht.trans_lt (by norm_num))) (by simp only [habs]; exact hasSum_arcsin (by rw [abs_of_pos (by norm_num)]; norm_num))
    (by simp only [habs]; rw [silver_joukowski]; exact hasSum_arcsin (by rw [abs_of_pos (by positivity)]; exact hsq))
  have h1 := Real.arcsin_le_pi_div_two (70710678118654752440 / 10 ^ 20)
  have h2 := Real.arcsin_le_pi_div_two (70710678118654752440 / 10 ^ 20 * √2)
  have hpi := Real.pi_lt_d4
  refine key.mono ?_ ?_
  · rw [div_mul_eq_mul_div]
    have := silver_bounds.1
    gcongr
    linarith
  · rw [silver_joukowski, div_self (by positivity), one_pow]
    linarith

/-! ### Tangent with its poles cancelled -/

theorem nearPoly_tan (N : ℕ) : NearPoly (fun x => Real.tan (Real.pi * x) * (x ^ 2 - 1 / 4)) N (499999 / 10 ^ 6) (28 / (54 / 10) ^ (N + 1)) (14 + 28 * (51 / 100) ^ (N + 1)) := by
  obtain ⟨S, hS, hS'⟩ := tanCoeff_summable (y := 499999 / 10 ^ 6 * ((54 / 10 + (54 / 10)⁻¹) / 2)) (by positivity) (by norm_num)
  obtain ⟨S₀, hS₀, hS₀'⟩ := tanCoeff_summable (y := 499999 / 10 ^ 6) (by positivity) (by norm_num)
  have h0 : 0 ≤ S := hS.nonneg fun p => by positivity
  have key := nearPoly_of_series (fun x => Real.tan (Real.pi * x) * (x ^ 2 - 1 / 4)) tanCoeff (fun p => 2 * p.2 + 1) N (ρ := 54 / 10) (w := 499999 / 10 ^ 6)
    (silver_bounds.2.trans (by norm_num)) (by norm_num) (fun t ht => hasSum_tan_quarter (ht.trans_lt (by norm_num))) hS₀ hS
  refine key.mono ?_ ?_
  · rw [div_mul_eq_mul_div]
    gcongr
    linarith
  · have h3 : √2 / ((54 / 10 + (54 / 10 : ℝ)⁻¹) / 2) ≤ 51 / 100 := by
      rw [div_le_iff₀ (by norm_num)]
      have := sqrt_two_bounds.2
      norm_num at this ⊢
      linarith
    have h4 : (√2 / ((54 / 10 + (54 / 10 : ℝ)⁻¹) / 2)) ^ (N + 1) ≤ (51 / 100) ^ (N + 1) := pow_le_pow_left₀ (by positivity) h3 _
    refine le_trans (add_le_add hS₀' (mul_le_mul (mul_le_mul_of_nonneg_left h4 zero_le_two) hS' h0 (by positivity))) (le_of_eq (by ring))

/-! ### Inverse tangent -/

/-- The inverse tangent of a complex number inside the unit circle. -/
theorem re_arctan {z : ℂ} (hz : ‖z‖ < 1) : (Complex.arctan z).re = 1 / 2 * Real.arctan (2 * z.re / (1 - Complex.normSq z)) := by
  have hn : Complex.normSq z < 1 := by
    rw [Complex.normSq_eq_norm_sq]
    nlinarith [norm_nonneg z]
  set a := z.re with ha
  set b := z.im with hb
  have hN : Complex.normSq z = a * a + b * b := Complex.normSq_apply z
  set q : ℂ := (1 + z * Complex.I) / (1 - z * Complex.I) with hq
  have e0 : (Complex.arctan z).re = 1 / 2 * q.arg := by
    rw [Complex.arctan, ← Complex.log_im, hq]
    simp [Complex.mul_re]
    ring
  have hd : Complex.normSq (1 - z * Complex.I) = (1 + b) * (1 + b) + a * a := by
    rw [Complex.normSq_apply]
    simp [Complex.mul_re, Complex.mul_im, ← ha, ← hb]
  have hd0 : 0 < (1 + b) * (1 + b) + a * a := by nlinarith [sq_nonneg a, sq_nonneg b, sq_nonneg (1 + b)]
  have hre : q.re = (1 - Complex.normSq z) / ((1 + b) * (1 + b) + a * a) := by
    rw [hq, Complex.div_re, hd, hN]
    simp [Complex.mul_re, Complex.mul_im, ← ha, ← hb]
    field_simp
    ring
  have him : q.im = 2 * a / ((1 + b) * (1 + b) + a * a) := by
    rw [hq, Complex.div_im, hd]
    simp [Complex.mul_re, Complex.mul_im, ← ha, ← hb]
    field_simp
    ring
  have hpos : 0 < q.re := by rw [hre]; exact div_pos (by linarith) hd0
  have harg : |q.arg| < Real.pi / 2 := Complex.abs_arg_lt_pi_div_two_iff.2 (Or.inl hpos)
  have htan : Real.tan q.arg = 2 * a / (1 - Complex.normSq z) := by
    rw [Complex.tan_arg, hre, him]
    have : 1 - Complex.normSq z ≠ 0 := by linarith
    have := hd0.ne'
    rw [div_div_div_cancel_right₀ this]
  rw [e0, ← htan, Real.arctan_tan (abs_lt.1 harg).1 (abs_lt.1 harg).2]

/-- The expansion of the inverse tangent in Chebyshev polynomials. -/
theorem hasSum_arctan_cos (θ : ℝ) :
    HasSum (fun n : ℕ => 2 * (-1) ^ n * silver⁻¹ ^ (2 * n + 1) / (2 * n + 1) * Real.cos ((2 * n + 1) * θ)) (Real.arctan (Real.cos θ)) := by
  have hs := silver_pos
  have hs1 : 1 < silver := by linarith [silver_bounds.1]
  have hr : silver⁻¹ < 1 := inv_lt_one_of_one_lt₀ hs1
  have hr0 : 0 < silver⁻¹ := by positivity
  set z : ℂ := silver⁻¹ * Complex.exp (θ * Complex.I) with hz
  have hnorm : ‖z‖ = silver⁻¹ := by
    rw [hz, norm_mul, Complex.norm_exp_ofReal_mul_I, mul_one]
    rw [Complex.norm_real, Real.norm_eq_abs, abs_of_pos hr0]
  have h := Complex.hasSum_re (Complex.hasSum_arctan (z := z) (by rw [hnorm]; exact hr))
  rw [re_arctan (by rw [hnorm]; exact hr), Complex.normSq_eq_norm_sq, hnorm] at h
  have hzre : z.re = silver⁻¹ * Real.cos θ := by
    rw [hz, Complex.re_ofReal_mul, Complex.exp_ofReal_mul_I_re]
  have hquot : 2 * z.re / (1 - silver⁻¹ ^ 2) = Real.cos θ := by
    rw [hzre, div_eq_iff (by nlinarith)]
    have := silver_sq
    field_simp
    rw [this]; ring
  rw [hquot] at h
  have h2 := h.mul_left 2
  rw [← mul_assoc, show (2 : ℝ) * (1 / 2) = 1 by norm_num, one_mul] at h2
  refine h2.congr_fun fun n => ?_
  have e : (-1) ^ n * z ^ (2 * n + 1) / ((2 * n + 1 : ℕ) : ℂ) = (((-1) ^ n * silver⁻¹ ^ (2 * n + 1) / (2 * n + 1) : ℝ) : ℂ) * Complex.exp (((2 * n + 1) * θ : ℝ) * Complex.I) := by
    rw [hz, mul_pow, ← Complex.exp_nat_mul]
    push_cast
    rw [show ((2 * n + 1 : ℂ)) * (θ * Complex.I) = (2 * n + 1) * θ * Complex.I by ring]
    ring
  rw [e, Complex.re_ofReal_mul, Complex.exp_ofReal_mul_I_re]
  ring

/-- The part of the expansion with degree at most `N`. -/
noncomputable def arctanCheb (N : ℕ) : ℝ[X] :=
  ∑ n ∈ Finset.range ((N + 1) / 2), C (2 * (-1) ^ n * silver⁻¹ ^ (2 * n + 1) / (2 * n + 1)) * T ℝ ((2 * n + 1 : ℕ) : ℤ)

theorem nearPoly_arctan (N : ℕ) : NearPoly Real.arctan N 1 (3 / (24142 / 10000) ^ (N + 1)) (∑ n ∈ Finset.range ((N + 1) / 2), 2 / (2 * (n : ℝ) + 1)) := by
  intro γ hγ
  have hs := silver_pos
  have hs1 : 1 < silver := by linarith [silver_bounds.1]
  have hr : silver⁻¹ < 1 := inv_lt_one_of_one_lt₀ hs1
  have hr0 : 0 < silver⁻¹ := by positivity
  set a : ℕ → ℝ := fun n => 2 * (-1) ^ n * silver⁻¹ ^ (2 * n + 1) / (2 * n + 1) with ha
  have habs : ∀ n, |a n| = 2 * silver⁻¹ ^ (2 * n + 1) / (2 * n + 1) := by
    intro n
    rw [ha]
    simp only []
    rw [abs_div, abs_mul, abs_mul, abs_pow, abs_neg, abs_one, one_pow, abs_two, mul_one, abs_of_pos (by positivity : 0 < silver⁻¹ ^ (2 * n + 1)),
      abs_of_pos (by positivity : (0 : ℝ) < 2 * n + 1)]
  refine ⟨arctanCheb N, ?_, fun t ht => ?_, ?_⟩
  · unfold arctanCheb
    refine lt_of_le_of_lt (degree_sum_le _ _) ?_
    rw [Finset.sup_lt_iff (by exact WithBot.bot_lt_coe _)]
    intro n hn
    have := Finset.mem_range.1 hn
    refine lt_of_le_of_lt (deg_C_mul_le _ _) ?_
    rw [degree_T, Int.natAbs_natCast]
    exact_mod_cast (by omega : 2 * n + 1 < N + 1)
  · have ht' := abs_le.1 ht
    set θ := Real.arccos t with hθ
    have hcos : Real.cos θ = t := Real.cos_arccos ht'.1 ht'.2
    have hsum := hasSum_arctan_cos θ
    rw [hcos] at hsum
    have hev : (arctanCheb N).eval t = ∑ n ∈ Finset.range ((N + 1) / 2), a n * Real.cos ((2 * n + 1) * θ) := by
      unfold arctanCheb
      rw [eval_finsetSum]
      refine Finset.sum_congr rfl fun n _ => ?_
      rw [eval_mul, eval_C, ← hcos, T_real_cos]
      push_cast
      rfl
    have htail := (Finset.range ((N + 1) / 2)).hasSum_iff_compl.1 hsum
    rw [← hev] at htail
    -- the tail is bounded by a geometric series
    have hgeo : HasSum (fun n : ℕ => 2 * silver⁻¹ * (silver⁻¹ ^ 2) ^ n) (2 * silver⁻¹ * (1 - silver⁻¹ ^ 2)⁻¹) :=
      (hasSum_geometric_of_lt_one (by positivity) (by nlinarith)).mul_left _
    have hgeo' : HasSum (fun n : ℕ => 2 * silver⁻¹ * (silver⁻¹ ^ 2) ^ (n + (N + 1) / 2)) ((silver⁻¹ ^ 2) ^ ((N + 1) / 2)) := by
      have := hgeo.mul_left ((silver⁻¹ ^ 2) ^ ((N + 1) / 2))
      have e : 2 * silver⁻¹ * (1 - silver⁻¹ ^ 2)⁻¹ = 1 := by
        rw [mul_inv_eq_one₀ (by nlinarith)]
        have := silver_sq
        field_simp
        linarith
      rw [e, mul_one] at this
      refine this.congr_fun fun n => ?_
      rw [pow_add]; ring
    have htail' : HasSum (fun n : ℕ => a (n + (N + 1) / 2) * Real.cos ((2 * ((n + (N + 1) / 2 : ℕ) : ℝ) + 1) * θ)) (Real.arctan t - (arctanCheb N).eval t) := by
      have := (hasSum_nat_add_iff' (f := fun n : ℕ => a n * Real.cos ((2 * n + 1) * θ)) ((N + 1) / 2)).2 hsum
      rw [← hev] at this
      exact this
    have hbound : |Real.arctan t - (arctanCheb N).eval t| ≤ (silver⁻¹ ^ 2) ^ ((N + 1) / 2) := by
      rw [← Real.norm_eq_abs, ← htail'.tsum_eq]
      refine tsum_of_norm_bounded hgeo' fun n => ?_
      rw [Real.norm_eq_abs, abs_mul, habs]
      set m := n + (N + 1) / 2
      have h1 := Real.abs_cos_le_one ((2 * (m : ℝ) + 1) * θ)
      have h2 : 2 * silver⁻¹ ^ (2 * m + 1) / (2 * m + 1) ≤ 2 * silver⁻¹ ^ (2 * m + 1) := div_le_self (by positivity) (by linarith [(Nat.cast_nonneg m : (0 : ℝ) ≤ m)])
      calc 2 * silver⁻¹ ^ (2 * m + 1) / (2 * m + 1) * |Real.cos ((2 * (m : ℝ) + 1) * θ)| ≤ 2 * silver⁻¹ ^ (2 * m + 1) * 1 :=
            mul_le_mul h2 h1 (abs_nonneg _) (by positivity)
        _ = _ := by rw [pow_succ, pow_mul]; ring
    have hfin : (silver⁻¹ ^ 2) ^ ((N + 1) / 2) ≤ 3 / (24142 / 10000) ^ (N + 1) := by
      rw [← pow_mul]
      have h1 : silver⁻¹ ≤ (24142 / 10000 : ℝ)⁻¹ := inv_anti₀ (by norm_num) silver_bounds.1
      have h2 : silver⁻¹ ^ (2 * ((N + 1) / 2)) ≤ ((24142 / 10000 : ℝ)⁻¹) ^ (2 * ((N + 1) / 2)) := pow_le_pow_left₀ hr0.le h1 _
      refine h2.trans ?_
      rw [le_div_iff₀ (by positivity)]
      obtain h | h : N + 1 = 2 * ((N + 1) / 2) ∨ N + 1 = 2 * ((N + 1) / 2) + 1 := by omega
      · rw [h, show 2 * (2 * ((N + 1) / 2) / 2) = 2 * ((N + 1) / 2) by omega, ← mul_pow]
        norm_num
      · conv_lhs => rw [h]
        rw [show 2 * ((2 * ((N + 1) / 2) + 1) / 2) = 2 * ((N + 1) / 2) by omega, pow_succ, ← mul_assoc, ← mul_pow]
        norm_num
    rw [abs_sub_comm]
    linarith
  · unfold arctanCheb
    refine (absSum_sum _ _ _ zero_le_one).trans (Finset.sum_le_sum fun n _ => ?_)
    rw [absSum_C_mul]
    have h1 := absSum_T (N + 1) (2 * n + 1)
    calc |2 * (-1) ^ n * silver⁻¹ ^ (2 * n + 1) / (2 * n + 1)| * absSum (N + 1) (T ℝ ((2 * n + 1 : ℕ) : ℤ)) 1
        ≤ |a n| * silver ^ (2 * n + 1) := mul_le_mul_of_nonneg_left h1 (abs_nonneg _)
      _ = 2 / (2 * n + 1) := by
        rw [habs, inv_pow]
        field_simp

/-- Close to zero the power series is enough. -/
theorem nearPoly_arctan_small (N : ℕ) {W : ℝ} (h0 : 0 < W) (h1 : W ≤ 42 / 100) : NearPoly Real.arctan N W (2 / (24142 / 10000) ^ (N + 1)) 3 := by
  have hs2 := sqrt_two_bounds
  have hc : ∀ (y : ℝ) (j : ℕ), |(-1) ^ j / (2 * (j : ℝ) + 1)| * y ^ (2 * j + 1) = y ^ (2 * j + 1) / (2 * j + 1) := by
    intro y j
    rw [abs_div, abs_pow, abs_neg, abs_one, one_pow, abs_of_pos (by positivity : (0 : ℝ) < 2 * j + 1)]
    ring
  have hsum : ∀ y : ℝ, 0 < y → y ≤ 6 / 10 → ∃ S, HasSum (fun j : ℕ => |(-1) ^ j / (2 * (j : ℝ) + 1)| * y ^ (2 * j + 1)) S ∧ S ≤ 1 ∧ 0 ≤ S := by
    intro y hy0 hy
    have hg : HasSum (fun n : ℕ => y * (y ^ 2) ^ n) (y * (1 - y ^ 2)⁻¹) := (hasSum_geometric_of_lt_one (by positivity) (by nlinarith)).mul_left _
    have hle : ∀ j : ℕ, y ^ (2 * j + 1) / (2 * j + 1) ≤ y * (y ^ 2) ^ j := by
      intro j
      rw [show y * (y ^ 2) ^ j = y ^ (2 * j + 1) by rw [← pow_mul, pow_succ, mul_comm]]
      exact div_le_self (by positivity) (by linarith [(Nat.cast_nonneg j : (0 : ℝ) ≤ j)])
    have hsm : Summable fun j : ℕ => y ^ (2 * j + 1) / (2 * (j : ℝ) + 1) := Summable.of_nonneg_of_le (fun j => by positivity) hle hg.summable
    refine ⟨_, by simp only [hc]; exact hsm.hasSum, (hasSum_le hle hsm.hasSum hg).trans ?_, tsum_nonneg fun j => by positivity⟩
    rw [mul_inv_le_iff₀ (by nlinarith)]
    nlinarith
  obtain ⟨S₀, a1, a2, -⟩ := hsum W h0 (by linarith)
  obtain ⟨S, b1, b2, b3⟩ := hsum (W * √2) (by positivity) (by nlinarith)
  have key := nearPoly_of_series Real.arctan (fun j : ℕ => (-1) ^ j / (2 * (j : ℝ) + 1)) (fun j => 2 * j + 1) N (ρ := silver) (w := W) le_rfl h0
    (fun t ht => by
      refine (Real.hasSum_arctan (x := t) (by rw [Real.norm_eq_abs]; linarith)).congr_fun fun j => ?_
      push_cast; ring)
    a1 (by rw [silver_joukowski]; exact b1)
  refine key.mono ?_ ?_
  · rw [div_mul_eq_mul_div]
    have := silver_bounds.1
    gcongr
    linarith
  · rw [silver_joukowski, div_self (by positivity), one_pow]
    linarith

end Verif

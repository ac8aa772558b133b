import Mathlib.Analysis.Calculus.Deriv.MeanValue
import Mathlib.MeasureTheory.Integral.IntegralEqImproper
import Verif.Lemmas.Normal

/-!
# The normal distribution function under Newton steps

Facts about `normalCdf` on `[0, ∞)` (concave, tails bounded by the density) and one perturbed Newton step towards a level.
-/

namespace Verif
namespace Bd
open Dec MeasureTheory

theorem sqrt_two_pi : √(2 * Real.pi) = √2 * √Real.pi := Real.sqrt_mul (by norm_num) _

theorem normalPdf_pos (u : ℝ) : 0 < normalPdf u := by
  unfold normalPdf
  have := Real.pi_pos
  positivity

theorem normalPdf_add (g t : ℝ) : normalPdf (g + t) = normalPdf g * Real.exp (-(g * t + t ^ 2 / 2)) := by
  unfold normalPdf
  rw [mul_assoc, ← Real.exp_add]
  congr 2; ring

theorem normalPdf_neg (u : ℝ) : normalPdf (-u) = normalPdf u := by
  unfold normalPdf; rw [neg_sq]

theorem hasDerivAt_gaussInt (x : ℝ) : HasDerivAt gaussInt (Real.exp (-x ^ 2)) x := by
  unfold gaussInt
  exact (by fun_prop : Continuous fun t : ℝ => Real.exp (-t ^ 2)).integral_hasStrictDerivAt 0 x |>.hasDerivAt

theorem hasDerivAt_normalCdf (u : ℝ) : HasDerivAt normalCdf (normalPdf u) u := by
  have h := ((hasDerivAt_gaussInt (u / √2)).comp u ((hasDerivAt_id u).div_const (√2))).const_mul (1 / √Real.pi)
  have h2 := h.const_add (1 / 2)
  have e : normalCdf = fun u => 1 / 2 + 1 / √Real.pi * gaussInt (u / √2) := funext normalCdf_eq
  rw [e]
  refine h2.congr_deriv ?_
  unfold normalPdf
  rw [sqrt_two_pi, div_pow, Real.sq_sqrt (by norm_num)]
  have : √Real.pi ≠ 0 := by have := Real.pi_pos; positivity
  field_simp

theorem normalCdf_zero : normalCdf 0 = 1 / 2 := by
  rw [normalCdf_eq]; simp [gaussInt]

theorem gaussInt_neg (x : ℝ) : gaussInt (-x) = -gaussInt x := by
  unfold gaussInt
  rw [← intervalIntegral.integral_symm, ← neg_zero, ← intervalIntegral.integral_comp_neg]
  simp

theorem normalCdf_neg (u : ℝ) : normalCdf (-u) = 1 - normalCdf u := by
  rw [normalCdf_eq, normalCdf_eq, neg_div, gaussInt_neg]; ring

theorem normalCdf_strictMono : StrictMono normalCdf :=
  strictMono_of_hasDerivAt_pos (fun u => hasDerivAt_normalCdf u) normalPdf_pos

theorem normalCdf_tendsto : Filter.Tendsto normalCdf Filter.atTop (nhds 1) := by
  have h := (aecover_Iic (μ := volume) (Filter.tendsto_id (α := ℝ) (x := Filter.atTop))).integral_tendsto_of_countably_generated integrable_half
  have h2 := h.const_mul (1 / √(2 * Real.pi))
  have hg := integral_gaussian (1 / 2)
  have e : (fun x : ℝ => Real.exp (-(1 / 2) * x ^ 2)) = fun t : ℝ => Real.exp (-t ^ 2 / 2) := by
    funext t; congr 1; ring
  rw [e] at hg
  rw [hg] at h2
  have e2 : 1 / √(2 * Real.pi) * √(Real.pi / (1 / 2)) = 1 := by
    rw [show Real.pi / (1 / 2) = 2 * Real.pi by ring]
    have : √(2 * Real.pi) ≠ 0 := by have := Real.pi_pos; positivity
    field_simp
  rw [e2] at h2
  exact h2

theorem normalCdf_lt_one (u : ℝ) : normalCdf u < 1 := by
  have h1 : normalCdf u < normalCdf (u + 1) := normalCdf_strictMono (by linarith)
  have h2 : normalCdf (u + 1) ≤ 1 :=
    ge_of_tendsto normalCdf_tendsto ((Filter.eventually_ge_atTop (u + 1)).mono fun v hv => normalCdf_strictMono.monotone hv)
  linarith

theorem normalCdf_pos (u : ℝ) : 0 < normalCdf u := by
  have := normalCdf_lt_one (-u)
  rw [normalCdf_neg] at this; linarith

/-- A function with non-negative derivative to the right of 0 that starts at 0 is non-negative. -/
theorem nonneg_of_deriv {K K' : ℝ → ℝ} (h0 : K 0 = 0) (hd : ∀ t, HasDerivAt K (K' t) t) (hp : ∀ t, 0 ≤ t → 0 ≤ K' t) {t : ℝ} (ht : 0 ≤ t) : 0 ≤ K t := by
  have hm : MonotoneOn K (Set.Ici 0) := by
    apply monotoneOn_of_deriv_nonneg (convex_Ici 0)
    · exact fun s _ => (hd s).continuousAt.continuousWithinAt
    · exact fun s _ => (hd s).differentiableAt.differentiableWithinAt
    · intro s hs
      rw [interior_Ici] at hs
      rw [(hd s).deriv]; exact hp s (le_of_lt hs)
  have := hm (Set.mem_Ici.2 le_rfl) (Set.mem_Ici.2 ht) ht
  rwa [h0] at this

theorem hasDerivAt_shift (g t : ℝ) : HasDerivAt (fun t => normalCdf (g + t)) (normalPdf (g + t)) t := by
  have h := (hasDerivAt_normalCdf (g + t)).comp t ((hasDerivAt_id t).const_add g)
  rw [mul_one] at h
  exact h

/-- Concavity: the increase over a step to the right is at most the step times the density at its start. -/
theorem cdf_step_le {g s : ℝ} (hg : 0 ≤ g) (hs : 0 ≤ s) : normalCdf (g + s) - normalCdf g ≤ s * normalPdf g := by
  have h := nonneg_of_deriv (K := fun t => t * normalPdf g - (normalCdf (g + t) - normalCdf g)) (K' := fun t => 1 * normalPdf g - normalPdf (g + t))
    (by simp) (fun t => ((hasDerivAt_id t).mul_const _).sub ((hasDerivAt_shift g t).sub_const _)) (by
      intro t ht
      rw [normalPdf_add, one_mul]
      have : Real.exp (-(g * t + t ^ 2 / 2)) ≤ 1 := Real.exp_le_one_iff.2 (by nlinarith [sq_nonneg t, mul_nonneg hg ht])
      nlinarith [normalPdf_pos g]) hs
  linarith

/-- and at least the step times the density at its end. -/
theorem le_cdf_step {g s : ℝ} (hg : 0 ≤ g) (hs : 0 ≤ s) : s * normalPdf (g + s) ≤ normalCdf (g + s) - normalCdf g := by
  rcases hs.eq_or_lt with h0 | h0
  · rw [← h0]; simp
  obtain ⟨c, hc, he⟩ := exists_hasDerivAt_eq_slope normalCdf normalPdf (show g < g + s by linarith)
    (fun u _ => (hasDerivAt_normalCdf u).continuousAt.continuousWithinAt) (fun u _ => hasDerivAt_normalCdf u)
  rw [show g + s - g = s by ring, eq_div_iff h0.ne'] at he
  have h1 : normalPdf (g + s) ≤ normalPdf c := by
    unfold normalPdf
    have hpi := Real.pi_pos
    apply mul_le_mul_of_nonneg_left _ (by positivity)
    apply Real.exp_le_exp.2
    nlinarith [hc.1, hc.2]
  nlinarith

/-- The increase to the right of `g` is at most the density over `g`. -/
theorem cdf_tail_le {g s : ℝ} (hg : 0 ≤ g) (hs : 0 ≤ s) : g * (normalCdf (g + s) - normalCdf g) ≤ normalPdf g := by
  have h := nonneg_of_deriv (K := fun t => normalPdf g * (1 - Real.exp (-(g * t))) - g * (normalCdf (g + t) - normalCdf g))
    (K' := fun t => normalPdf g * (-(Real.exp (-(g * t)) * -(g * 1))) - g * normalPdf (g + t))
    (by simp) (fun t => ((((((hasDerivAt_id t).const_mul g).neg).exp).const_sub 1).const_mul _).sub (((hasDerivAt_shift g t).sub_const _).const_mul g)) (by
      intro t ht
      rw [normalPdf_add]
      have : Real.exp (-(g * t + t ^ 2 / 2)) ≤ Real.exp (-(g * t)) := Real.exp_le_exp.2 (by nlinarith [sq_nonneg t])
      have h2 := mul_le_mul_of_nonneg_left this (mul_nonneg hg (normalPdf_pos g).le)
      linarith) hs
  have h3 := mul_pos (normalPdf_pos g) (Real.exp_pos (-(g * s)))
  nlinarith

/-- The increase to the right of `g` is at most `√(π/2)` times the density at `g`. -/
theorem cdf_tail_le' {g s : ℝ} (hg : 0 ≤ g) (hs : 0 ≤ s) : normalCdf (g + s) - normalCdf g ≤ 1.2534 * normalPdf g := by
  have h := nonneg_of_deriv (K := fun t => normalPdf g * ((normalCdf (0 + t) - 1 / 2) * √(2 * Real.pi)) - (normalCdf (g + t) - normalCdf g))
    (K' := fun t => normalPdf g * (normalPdf (0 + t) * √(2 * Real.pi)) - normalPdf (g + t))
    (by simp [normalCdf_zero]) (fun t => ((((hasDerivAt_shift 0 t).sub_const _).mul_const _).const_mul _).sub ((hasDerivAt_shift g t).sub_const _)) (by
      intro t ht
      rw [normalPdf_add g]
      have e : normalPdf (0 + t) * √(2 * Real.pi) = Real.exp (-t ^ 2 / 2) := by
        unfold normalPdf
        have : √(2 * Real.pi) ≠ 0 := by have := Real.pi_pos; positivity
        rw [zero_add]; field_simp
      rw [e]
      have : Real.exp (-(g * t + t ^ 2 / 2)) ≤ Real.exp (-t ^ 2 / 2) := Real.exp_le_exp.2 (by linarith [mul_nonneg hg ht])
      have h2 := mul_le_mul_of_nonneg_left this (normalPdf_pos g).le
      linarith) hs
  have h1 := normalCdf_lt_one (0 + s)
  have h2 : √(2 * Real.pi) ≤ 2.5068 := by
    apply Real.sqrt_le_iff.2; norm_num; linarith [Real.pi_lt_d4]
  have h0 : 0 ≤ √(2 * Real.pi) := Real.sqrt_nonneg _
  have h3 : (normalCdf (0 + s) - 1 / 2) * √(2 * Real.pi) ≤ 1.2534 := by nlinarith
  have h4 := mul_le_mul_of_nonneg_left h3 (normalPdf_pos g).le
  linarith

/-- Density and distribution at 4. -/
theorem normalPdf_ge {g : ℝ} (h0 : 0 ≤ g) (h4 : g ≤ 4) : 1 / 8000 ≤ normalPdf g := by
  unfold normalPdf
  have h1 : (0.39 : ℝ) ≤ 1 / √(2 * Real.pi) := by
    have hs : √(2 * Real.pi) ≤ 2.5068 := by apply Real.sqrt_le_iff.2; norm_num; linarith [Real.pi_lt_d4]
    have : 0 < √(2 * Real.pi) := by have := Real.pi_pos; positivity
    rw [le_div_iff₀ this]; linarith
  have h2 : (1 : ℝ) / 3100 ≤ Real.exp (-g ^ 2 / 2) := by
    have h3 : Real.exp (-8) ≤ Real.exp (-g ^ 2 / 2) := Real.exp_le_exp.2 (by nlinarith)
    refine le_trans ?_ h3
    rw [Real.exp_neg, one_div]
    apply inv_anti₀ (Real.exp_pos _)
    rw [show (8 : ℝ) = ((8 : ℕ) : ℝ) * 1 by norm_num, Real.exp_nat_mul]
    have := Real.exp_one_lt_d9
    calc Real.exp 1 ^ 8 ≤ 2.7182818286 ^ 8 := by gcongr
      _ ≤ 3100 := by norm_num
  calc (1 : ℝ) / 8000 ≤ 0.39 * (1 / 3100) := by norm_num
    _ ≤ _ := by gcongr

theorem normalPdf_le_half (g : ℝ) : normalPdf g ≤ 1 / 2 := by
  unfold normalPdf
  have hs : (2 : ℝ) ≤ √(2 * Real.pi) := Real.le_sqrt_of_sq_le (by norm_num; linarith [Real.pi_gt_d2])
  have h1 : 1 / √(2 * Real.pi) ≤ 1 / 2 := one_div_le_one_div_of_le (by norm_num) hs
  have h2 : Real.exp (-g ^ 2 / 2) ≤ 1 := Real.exp_le_one_iff.2 (by nlinarith [sq_nonneg g])
  calc 1 / √(2 * Real.pi) * Real.exp (-g ^ 2 / 2) ≤ 1 / 2 * 1 := by gcongr
    _ = 1 / 2 := by norm_num

theorem normalCdf_four : 0.99995 ≤ normalCdf 4 := by
  have hlim : Filter.Tendsto (fun s => 4 * (normalCdf (4 + s) - normalCdf 4)) Filter.atTop (nhds (4 * (1 - normalCdf 4))) :=
    ((normalCdf_tendsto.comp (Filter.tendsto_atTop_add_const_left _ 4 Filter.tendsto_id)).sub_const _).const_mul 4
  have h1 : 4 * (1 - normalCdf 4) ≤ normalPdf 4 :=
    le_of_tendsto hlim ((Filter.eventually_ge_atTop 0).mono fun s hs => cdf_tail_le (by norm_num) hs)
  have h2 : normalPdf 4 ≤ 0.0002 := by
    unfold normalPdf
    have hs : (2.5 : ℝ) ≤ √(2 * Real.pi) := Real.le_sqrt_of_sq_le (by norm_num; linarith [Real.pi_gt_d2])
    have h1 : 1 / √(2 * Real.pi) ≤ 0.4 := by rw [div_le_iff₀ (by linarith)]; linarith
    have h3 : Real.exp (-4 ^ 2 / 2) ≤ 1 / 2500 := by
      rw [show (-4 ^ 2 / 2 : ℝ) = -8 by norm_num, Real.exp_neg, one_div]
      apply inv_anti₀ (by norm_num)
      rw [show (8 : ℝ) = ((8 : ℕ) : ℝ) * 1 by norm_num, Real.exp_nat_mul]
      have := Real.exp_one_gt_d9
      calc (2500 : ℝ) ≤ 2.7182818283 ^ 8 := by norm_num
        _ ≤ _ := by gcongr
    calc 1 / √(2 * Real.pi) * Real.exp (-4 ^ 2 / 2) ≤ 0.4 * (1 / 2500) := by gcongr
      _ ≤ 0.0002 := by norm_num
  linarith

theorem one_sub_cdf_le {g : ℝ} (hg : 0 ≤ g) : g * (1 - normalCdf g) ≤ normalPdf g ∧ 1 - normalCdf g ≤ 1.2534 * normalPdf g := by
  have hl : Filter.Tendsto (fun s => normalCdf (g + s) - normalCdf g) Filter.atTop (nhds (1 - normalCdf g)) :=
    (normalCdf_tendsto.comp (Filter.tendsto_atTop_add_const_left _ g Filter.tendsto_id)).sub_const _
  exact ⟨le_of_tendsto (hl.const_mul g) ((Filter.eventually_ge_atTop 0).mono fun s hs => cdf_tail_le hg hs),
    le_of_tendsto hl ((Filter.eventually_ge_atTop 0).mono fun s hs => cdf_tail_le' hg hs)⟩

theorem exp_neg_ge : 0.165 ≤ Real.exp (-1.8) := by
  have h : Real.exp 1.8 ^ 5 ≤ 6.05 ^ 5 := by
    rw [← Real.exp_nat_mul, show ((5 : ℕ) : ℝ) * 1.8 = ((9 : ℕ) : ℝ) * 1 by norm_num, Real.exp_nat_mul]
    have := Real.exp_one_lt_d9
    calc Real.exp 1 ^ 9 ≤ 2.7182818286 ^ 9 := by gcongr
      _ ≤ 6.05 ^ 5 := by norm_num
  have h2 : Real.exp 1.8 ≤ 6.05 := le_of_pow_le_pow_left₀ (by norm_num) (by norm_num) h
  rw [Real.exp_neg]
  calc (0.165 : ℝ) ≤ 6.05⁻¹ := by norm_num
    _ ≤ _ := inv_anti₀ (Real.exp_pos _) h2

/-- One Newton step from `G ≥ 0` towards the level `X`, with a perturbed residual `et`, density `pd` and quotient `s`; `w` is the unit of the errors.
The step never passes the level by more than a quarter unit; a large residual shrinks by the factor 0.84, a small one all but vanishes. -/
theorem newton_step {G X w et pd s : ℝ} (hw0 : 1 / 10 ^ 80 ≤ w) (hw1 : w ≤ 1 / 10 ^ 20) (hG0 : 0 ≤ G) (hG4 : G ≤ 4) (hX : X ≤ 1)
    (het : |et - (X - normalCdf G)| ≤ 0.14 * w) (het2 : w / 2 ≤ et) (hpd : |pd - normalPdf G| ≤ 0.082 * w)
    (hs : |s - et / pd| ≤ 1 / 10 ^ 99 * |et / pd|) :
    0 ≤ s ∧ -(0.25 * w) ≤ X - normalCdf (G + s) ∧
      (X - normalCdf G ≤ 10 ^ 6 * w → X - normalCdf (G + s) ≤ 0.3 * w) ∧
      (10 ^ 6 * w ≤ X - normalCdf G → X - normalCdf (G + s) ≤ 0.84 * (X - normalCdf G)) := by
  have hφ := normalPdf_ge hG0 hG4
  have hφ1 := normalPdf_le_half G
  obtain ⟨t1, t2⟩ := one_sub_cdf_le hG0
  have hwpos : 0 < w := lt_of_lt_of_le (by positivity) hw0
  have hΦ := normalCdf_pos G
  set φ := normalPdf G with hφd
  set Φ := normalCdf G with hΦd
  set E := X - Φ with hE
  have hEt : E ≤ 1.2534 * φ := by rw [hE]; linarith
  have hEg : G * E ≤ φ := le_trans (mul_le_mul_of_nonneg_left (by rw [hE]; linarith) hG0) t1
  have hE1 : E ≤ 1 := by rw [hE]; linarith
  obtain ⟨e1, e2⟩ := abs_le.1 het
  obtain ⟨p1, p2⟩ := abs_le.1 hpd
  have hw2 : w ≤ 1 / 10 ^ 16 * φ := by
    have : (1 : ℝ) / 10 ^ 20 ≤ 1 / 10 ^ 16 * (1 / 8000) := by norm_num
    have h3 : (1 : ℝ) / 10 ^ 16 * (1 / 8000) ≤ 1 / 10 ^ 16 * φ := by gcongr
    linarith
  have hpd0 : 0.999 * φ ≤ pd := by norm_num at hw2 ⊢; linarith
  have hφ0 : 0 < φ := by linarith [show (0 : ℝ) < 1 / 8000 by norm_num]
  have hpdpos : 0 < pd := by nlinarith
  have het0 : 0 < et := by linarith
  -- the exact quotient
  set r := et / pd with hr
  have hr0 : 0 < r := by positivity
  have hrpd : r * pd = et := by rw [hr]; field_simp
  have hr1 : r ≤ 1.26 := by
    rw [hr, div_le_iff₀ hpdpos]; norm_num at hw2 ⊢; linarith
  rw [abs_of_pos hr0] at hs
  obtain ⟨s1, s2⟩ := abs_le.1 hs
  have hη : (1 : ℝ) / 10 ^ 99 * 1 ≤ 1 / 10 ^ 19 * w := by
    calc (1 : ℝ) / 10 ^ 99 * 1 = 1 / 10 ^ 19 * (1 / 10 ^ 80) := by norm_num
      _ ≤ _ := by gcongr
  have hηr : 1 / 10 ^ 99 * r ≤ 1 / 10 ^ 18 * w := by
    have : (1 : ℝ) / 10 ^ 99 * r ≤ 1 / 10 ^ 99 * 1.26 := by gcongr
    norm_num at hη this ⊢; linarith
  have hs0 : 0 ≤ s := by
    have : (1 : ℝ) / 10 ^ 99 * r ≤ 1 * r := by gcongr; norm_num
    linarith
  -- the increase a linear function would have
  set S := s * φ with hS
  have hrφ : |r * φ - et| ≤ 0.1034 * w := by
    rw [← hrpd, ← mul_sub, abs_mul, abs_of_pos hr0, abs_sub_comm]
    calc r * |pd - φ| ≤ 1.26 * (0.082 * w) := by gcongr
      _ ≤ 0.1034 * w := by linarith
  have hSr : |S - r * φ| ≤ 1 / 10 ^ 18 * w := by
    rw [hS, ← sub_mul, abs_mul, abs_of_pos hφ0]
    have h1 : |s - r| ≤ 1 / 10 ^ 18 * w := hs.trans hηr
    calc |s - r| * φ ≤ (1 / 10 ^ 18 * w) * (1 / 2) := by gcongr
      _ ≤ 1 / 10 ^ 18 * w := by linarith [show (0 : ℝ) < 1 / 10 ^ 18 * w by positivity]
  have hSE : |S - E| ≤ 0.244 * w := by
    have h1 := abs_sub_le S (r * φ) et
    have h2 := abs_sub_le S et E
    norm_num at hSr; linarith
  obtain ⟨S1, S2⟩ := abs_le.1 hSE
  have hlow := cdf_step_le hG0 hs0
  have hup := le_cdf_step hG0 hs0
  rw [normalPdf_add, ← mul_assoc, ← hφd, ← hS] at hup
  rw [← hφd, ← hS, ← hΦd] at hlow
  rw [← hΦd] at hup
  have hsS : s = S / φ := by rw [hS]; field_simp
  have hE' : X - normalCdf (G + s) = E - (normalCdf (G + s) - Φ) := by rw [hE]; ring
  refine ⟨hs0, ?_, ?_, ?_⟩
  · rw [hE']; linarith
  · intro hsm
    rw [hE']
    have hs3 : s ≤ 1 / 10 ^ 10 := by
      rw [hsS, div_le_iff₀ hφ0]
      have h5 : (1 : ℝ) / 10 ^ 10 * (1 / 8000) ≤ 1 / 10 ^ 10 * φ := by gcongr
      norm_num at hw1 h5 ⊢; linarith
    have hz : G * s + s ^ 2 / 2 ≤ 1 / 10 ^ 9 := by
      have h6 : G * s ≤ 4 * (1 / 10 ^ 10) := by gcongr
      have h7 : s ^ 2 ≤ (1 / 10 ^ 10) ^ 2 := by gcongr
      norm_num at h6 h7 ⊢; linarith
    have hx := Real.add_one_le_exp (-(G * s + s ^ 2 / 2))
    have hS0 : 0 ≤ S := by positivity
    have h8 : S * (1 - 1 / 10 ^ 9) ≤ S * Real.exp (-(G * s + s ^ 2 / 2)) := by
      apply mul_le_mul_of_nonneg_left _ hS0; linarith
    generalize Real.exp (-(G * s + s ^ 2 / 2)) = q at *
    norm_num at h8 hsm; linarith
  · intro hlg
    rw [hE']
    have hwE : w ≤ 1 / 10 ^ 6 * E := by norm_num at hlg ⊢; linarith
    have hSle : S ≤ 1.000001 * E := by norm_num at hwE ⊢; linarith
    have hSge : 0.999999 * E ≤ S := by norm_num at hwE ⊢; linarith
    have hz : G * s + s ^ 2 / 2 ≤ 1.8 := by
      have h6 : G * s ≤ 1.000001 := by
        rw [hsS, ← mul_div_assoc, div_le_iff₀ hφ0]
        have := mul_le_mul_of_nonneg_left hSle hG0
        linarith
      have h7 : s ≤ 1.2535 := by
        rw [hsS, div_le_iff₀ hφ0]; linarith
      have h9 : s ^ 2 ≤ 1.2535 ^ 2 := by gcongr
      norm_num at h6 h9 ⊢; linarith
    have hx : 0.165 ≤ Real.exp (-(G * s + s ^ 2 / 2)) := exp_neg_ge.trans (Real.exp_le_exp.2 (by linarith))
    have hE0 : 0 ≤ E := by linarith [show (0 : ℝ) < 10 ^ 6 * w by positivity]
    have h8 : (0.999999 * E) * 0.165 ≤ S * Real.exp (-(G * s + s ^ 2 / 2)) := by gcongr
    linarith

end Bd
end Verif

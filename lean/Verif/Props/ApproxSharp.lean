import Verif.Props.ApproxSeries
import Verif.Lemmas.SharpTan

/-!
# C98: how close the polynomials are

`C81` bounds the distance of the returned polynomials from their targets, but with a factor that grows with the number of terms.  Here the interpolant
is found in closed form, and the bounds are within a fifth of the true distance: at some point of the range the polynomial is at least so far off.
-/

namespace Verif
open Dec Polynomial

/-! ### `asin` and `acos` -/

/-- The certificate of `asin` and `acos` with `N + 1` terms and `n` digits. -/
def asinCert (N n : ℕ) (η' M₀ M ε A : ℚ) : ChebBudget :=
  let w : ℚ := 70710678118654752440 / 10 ^ 20
  ⟨N, n, w, 320, chebOfPoly (floorList 320 (asinTerm w) 160 0), 1, 0, 12 / 10 ^ 25, 1 / 10 ^ n, η', 1, 24143 / 10000, M₀, M, ε, A⟩

theorem asin_fits (ext : BdExt) (hs : SqrtOk ext) (hf : 3 ≤ ext.fuel) (s : ApproxSpec) (ht : s.target = ApproxSpec.asin.target) (hv : s.var = "x")
    (hp : s.parity = .odd) (hb : s.bounds = some (⟨-70710678118654752440, 20⟩, ⟨70710678118654752440, 20⟩)) (N n : ℕ) (hN : (N + 1) % 2 = 0) (η' M₀ M ε A : ℚ)
    (h : (asinCert N n η' M₀ M ε A).ok) : (asinCert N n η' M₀ M ε A).Fits ext s ⟨-70710678118654752440, 20⟩ ⟨70710678118654752440, 20⟩ Real.arcsin 1 0 := by
  have hlo : (⟨-70710678118654752440, 20⟩ : Dec).val = -(70710678118654752440 / 10 ^ 20) := by decide +kernel
  have hhi : (⟨70710678118654752440, 20⟩ : Dec).val = 70710678118654752440 / 10 ^ 20 := by decide +kernel
  exact ChebBudget.fits (asinCert N n η' M₀ M ε A) ext s _ _ hb (by rw [hlo]; rfl) (by rw [hhi]; rfl) (by rw [hp]; exact hN) Real.arcsin
    (by rw [hp]; exact ⟨by rw [hlo, hhi], fun t => Real.arcsin_neg t⟩) 1 0 (by simp [asinCert]) (by simp [asinCert]) (fun _ => rfl) (fun y hy => by
      have := asin_cut (w := 70710678118654752440 / 10 ^ 20) (by norm_num) (by norm_num) 320 80 hy
      simp only [asinCert]
      rw [one_mul, add_zero, zCheb_ofPoly_eval]
      refine this.trans ?_
      exact_mod_cast (by decide +kernel : ((70710678118654752440 / 10 ^ 20 : ℚ) ^ (2 * 80 + 1) / (1 - (70710678118654752440 / 10 ^ 20) ^ 2) + 2 ^ (2 * 80) / 2 ^ 320 : ℚ) ≤ 12 / 10 ^ 25)) (by
    intro d h3 h4
    obtain ⟨y, h5, h6⟩ := asin_sample ext hs hf n h.1.2.1 h.1.2.2.1 d (by
      rw [hlo] at h3
      rw [hhi] at h4
      have h3' := (Rat.cast_le (K := ℝ)).2 h3
      have h4' := (Rat.cast_le (K := ℝ)).2 h4
      push_cast at h3' h4'
      rw [abs_le]
      constructor <;> norm_num at h3' h4' ⊢ <;> linarith)
    refine ⟨y, by rw [ht, hv]; exact h5, ?_⟩
    simp only [asinCert]
    push_cast
    exact h6)

theorem asin_sharp (ext : BdExt) (hs : SqrtOk ext) (hf : 3 ≤ ext.fuel) (s : ApproxSpec) (ht : s.target = ApproxSpec.asin.target) (hv : s.var = "x")
    (hp : s.parity = .odd) (hb : s.bounds = some (⟨-70710678118654752440, 20⟩, ⟨70710678118654752440, 20⟩)) (N n : ℕ) (hN : (N + 1) % 2 = 0) (η' M₀ M ε A : ℚ)
    (h : (asinCert N n η' M₀ M ε A).ok) : WithinTerms ext s (N + 1) n Real.arcsin ε ∧ NearPoly Real.arcsin N (70710678118654752440 / 10 ^ 20) ε A := by
  have h1 := (asin_fits ext hs hf s ht hv hp hb N n hN η' M₀ M ε A h).within h
  refine ⟨h1.1, ?_⟩
  have := h1.2
  simp only [asinCert] at this
  push_cast at this
  exact this

theorem asin_ok_16 : (asinCert 15 20 (11 / 10 ^ 21) 560 561 (143 / 10 ^ 10) (789 / 1000)).ok := by decide +kernel

/-- **C98** `asin` and `acos` with 16 terms. -/
theorem asin_sharp_16 (ext : BdExt) (hs : SqrtOk ext) (hf : 3 ≤ ext.fuel) (s : ApproxSpec) (ht : s.target = ApproxSpec.asin.target) (hv : s.var = "x")
    (hp : s.parity = .odd) (hb : s.bounds = some (⟨-70710678118654752440, 20⟩, ⟨70710678118654752440, 20⟩)) :
    WithinTerms ext s 16 20 Real.arcsin (143 / 10 ^ 10) ∧ NearPoly Real.arcsin 15 (70710678118654752440 / 10 ^ 20) ((143 / 10 ^ 10 : ℚ) : ℝ) ((789 / 1000 : ℚ) : ℝ) :=
  asin_sharp ext hs hf s ht hv hp hb 15 20 rfl (11 / 10 ^ 21) 560 561 _ _ asin_ok_16

theorem asin_ok_36 : (asinCert 35 40 (13 / 10 ^ 25) (37 * 10 ^ 7) (5 * 10 ^ 9) (986 / 10 ^ 19) (787 / 1000)).ok := by decide +kernel

/-- **C98** `asin` with 36 terms and `acos` with 34. -/
theorem asin_sharp_36 (ext : BdExt) (hs : SqrtOk ext) (hf : 3 ≤ ext.fuel) :
    WithinTerms ext .asin 36 40 Real.arcsin (986 / 10 ^ 19) ∧ NearPoly Real.arcsin 35 (70710678118654752440 / 10 ^ 20) ((986 / 10 ^ 19 : ℚ) : ℝ) ((787 / 1000 : ℚ) : ℝ) :=
  asin_sharp ext hs hf .asin rfl rfl rfl rfl 35 40 rfl (13 / 10 ^ 25) (37 * 10 ^ 7) (5 * 10 ^ 9) _ _ asin_ok_36

theorem acos_ok_34 : (asinCert 33 40 (13 / 10 ^ 25) (93 * 10 ^ 6) (5 * 10 ^ 8) (625 / 10 ^ 18) (787 / 1000)).ok := by decide +kernel

theorem acos_sharp_34 (ext : BdExt) (hs : SqrtOk ext) (hf : 3 ≤ ext.fuel) :
    WithinTerms ext .acos 34 40 Real.arcsin (625 / 10 ^ 18) ∧ NearPoly Real.arcsin 33 (70710678118654752440 / 10 ^ 20) ((625 / 10 ^ 18 : ℚ) : ℝ) ((787 / 1000 : ℚ) : ℝ) :=
  asin_sharp ext hs hf .acos rfl rfl rfl rfl 33 40 rfl (13 / 10 ^ 25) (93 * 10 ^ 6) (5 * 10 ^ 8) _ _ acos_ok_34

/-! ### `log2` -/

/-- The certificate of `log2` with `N + 1` terms and `n` digits. -/
def log2Cert (N n : ℕ) (η' M₀ M ε A : ℚ) : ChebBudget :=
  ⟨N, n, 1 / 2, 320, chebOfPoly (floorList 320 logTerm 81 0), 14427 / 10000, 585 / 1000, 5 / 10 ^ 39, 27 * (1 / 10 ^ n), η', 1, 3, M₀, M, ε, A⟩

theorem logb_three_halves : Real.logb 2 (3 / 2) ≤ 585 / 1000 := by
  rw [Real.logb_le_iff_le_rpow (by norm_num) (by norm_num)]
  refine le_of_pow_le_pow_left₀ (n := 200) (by norm_num) (by positivity) ?_
  rw [← Real.rpow_natCast (2 ^ _), ← Real.rpow_mul (by norm_num), show (585 / 1000 * (200 : ℕ) : ℝ) = (117 : ℕ) by norm_num, Real.rpow_natCast]
  norm_num

theorem log2_fits (ext : BdExt) (hf : 5 ≤ ext.fuel) (N n : ℕ) (η' M₀ M ε A : ℚ) (h : (log2Cert N n η' M₀ M ε A).ok) : (log2Cert N n η' M₀ M ε A).Fits ext .log2 ⟨-5, 1⟩ ⟨5, 1⟩ (fun t => Real.logb 2 (t + 3 / 2)) (1 / Real.log 2) (Real.logb 2 (3 / 2)) := by
  have hlo : (⟨-5, 1⟩ : Dec).val = -(1 / 2) := by decide +kernel
  have hhi : (⟨5, 1⟩ : Dec).val = 1 / 2 := by decide +kernel
  have hl2 := Real.log_two_gt_d9
  exact ChebBudget.fits (log2Cert N n η' M₀ M ε A) ext .log2 ⟨-5, 1⟩ ⟨5, 1⟩ rfl (by rw [hlo]; rfl) (by rw [hhi]; rfl) trivial (fun t => Real.logb 2 (t + 3 / 2))
    trivial (1 / Real.log 2) (Real.logb 2 (3 / 2)) (by
      rw [abs_of_pos (by positivity), div_le_iff₀ (by linarith)]
      simp only [log2Cert]; push_cast; linarith) (by
      rw [abs_of_nonneg (Real.logb_nonneg (by norm_num) (by norm_num))]
      simp only [log2Cert]; push_cast; exact logb_three_halves) (fun h0 => by cases h0) (fun y hy => by
      have h2 := log_cut 320 80 hy
      have hy' := abs_le.1 hy
      simp only [log2Cert]
      rw [zCheb_ofPoly_eval]
      have e : Real.logb 2 (((1 / 2 : ℚ) : ℝ) * y + 3 / 2) = 1 / Real.log 2 * Real.log (1 + y / 3) + Real.logb 2 (3 / 2) := by
        rw [show ((1 / 2 : ℚ) : ℝ) * y + 3 / 2 = (1 + y / 3) * (3 / 2) by push_cast; ring, Real.logb_mul (by linarith) (by norm_num), Real.logb]
        ring
      rw [e, add_sub_add_right_eq_sub, ← mul_sub, abs_mul, abs_of_pos (by positivity)]
      have h3 : 1 / Real.log 2 ≤ ((14427 / 10000 : ℚ) : ℝ) := by
        rw [div_le_iff₀ (by linarith)]; push_cast; linarith
      refine (mul_le_mul h3 h2 (abs_nonneg _) (by positivity)).trans ?_
      exact_mod_cast (by decide +kernel : (14427 / 10000 * (1 / 2 * (1 / 3) ^ 80 + 2 ^ (80 + 1) / 2 ^ 320) : ℚ) ≤ 5 / 10 ^ 39)) (by
    intro d h3 h4
    obtain ⟨y, h5, h6⟩ := log2_sample ext hf n h.1.2.1 h.1.2.2.1 d h3 h4
    refine ⟨y, h5, ?_⟩
    simp only [log2Cert]
    push_cast
    exact h6)

theorem log2_sharp (ext : BdExt) (hf : 5 ≤ ext.fuel) (N n : ℕ) (η' M₀ M ε A : ℚ) (h : (log2Cert N n η' M₀ M ε A).ok) : WithinTerms ext .log2 (N + 1) n (fun t => Real.logb 2 (t + 3 / 2)) ε ∧ NearPoly (fun t => Real.logb 2 (t + 3 / 2)) N (1 / 2) ε A := by
  have h1 := (log2_fits ext hf N n η' M₀ M ε A h).within h
  refine ⟨h1.1, ?_⟩
  have := h1.2
  simp only [log2Cert] at this
  push_cast at this
  exact this

theorem log2_ok_10 : (log2Cert 9 20 (28 / 10 ^ 20) 5 6 (152 / 10 ^ 10) (1170 / 1000)).ok := by decide +kernel

theorem log2_sharp_10 (ext : BdExt) (hf : 5 ≤ ext.fuel) : WithinTerms ext .log2 10 20 (fun t => Real.logb 2 (t + 3 / 2)) (152 / 10 ^ 10) ∧
    NearPoly (fun t => Real.logb 2 (t + 3 / 2)) 9 (1 / 2) ((152 / 10 ^ 10 : ℚ) : ℝ) ((1170 / 1000 : ℚ) : ℝ) :=
  log2_sharp ext hf 9 20 (28 / 10 ^ 20) 5 6 _ _ log2_ok_10

theorem log2_ok_20 : (log2Cert 19 40 (8 / 10 ^ 39) 6 7 (169 / 10 ^ 18) (1170 / 1000)).ok := by decide +kernel

theorem log2_sharp_20 (ext : BdExt) (hf : 5 ≤ ext.fuel) : WithinTerms ext .log2 20 40 (fun t => Real.logb 2 (t + 3 / 2)) (169 / 10 ^ 18) ∧
    NearPoly (fun t => Real.logb 2 (t + 3 / 2)) 19 (1 / 2) ((169 / 10 ^ 18 : ℚ) : ℝ) ((1170 / 1000 : ℚ) : ℝ) :=
  log2_sharp ext hf 19 40 (8 / 10 ^ 39) 6 7 _ _ log2_ok_20

/-! ### `sin` and `cos` -/

/-- The certificate of `sin` with `N + 1` terms and `n` digits, cut after `J` terms of the series. -/
def sinCert (N n J : ℕ) (τ η' M₀ M ε A : ℚ) : ChebBudget :=
  ⟨N, n, 1 / 2, 320, chebOfPoly (floorList 320 sinTerm (2 * J) 0), 1, 0, τ, 3 * (1 / 10 ^ n), η', 1, 3, M₀, M, ε, A⟩

def cosCert (N n J : ℕ) (τ η' M₀ M ε A : ℚ) : ChebBudget :=
  ⟨N, n, 1 / 2, 320, chebOfPoly (floorList 320 cosTerm (2 * J) 0), 1, 0, τ, 3 * (1 / 10 ^ n), η', 1, 3, M₀, M, ε, A⟩

theorem sin_fits (ext : BdExt) (N n J : ℕ) (hN : (N + 1) % 2 = 0) (τ η' M₀ M ε A : ℚ) (h : (sinCert N n J τ η' M₀ M ε A).ok)
    (hτ : (1 / 10 ^ 59 + 734 * (1 / 4) ^ J + 2 ^ (2 * J) / 2 ^ 320 : ℚ) ≤ τ) : (sinCert N n J τ η' M₀ M ε A).Fits ext .sin ⟨-5, 1⟩ ⟨5, 1⟩ (fun t => Real.sin (2 * Real.pi * t)) 1 0 := by
  have hlo : (⟨-5, 1⟩ : Dec).val = -(1 / 2) := by decide +kernel
  have hhi : (⟨5, 1⟩ : Dec).val = 1 / 2 := by decide +kernel
  exact ChebBudget.fits (sinCert N n J τ η' M₀ M ε A) ext .sin ⟨-5, 1⟩ ⟨5, 1⟩ rfl (by rw [hlo]; rfl) (by rw [hhi]; rfl) hN (fun t => Real.sin (2 * Real.pi * t))
    ⟨by rw [hlo, hhi], fun t => by simp only [mul_neg, Real.sin_neg]⟩ 1 0 (by simp [sinCert]) (by simp [sinCert]) (fun _ => rfl) (fun y hy => by
      have h2 := sin_cut 320 J hy
      simp only [sinCert]
      rw [zCheb_ofPoly_eval, one_mul, add_zero, show 2 * Real.pi * (((1 / 2 : ℚ) : ℝ) * y) = Real.pi * y by push_cast; ring]
      exact h2.trans (by exact_mod_cast hτ)) (by
    intro d h3 h4
    obtain ⟨y, h5, h6⟩ := sin_sample ext n h.1.2.1 h.1.2.2.1 d h3 h4
    refine ⟨y, h5, ?_⟩
    simp only [sinCert]
    push_cast
    exact h6)

theorem sin_sharp (ext : BdExt) (N n J : ℕ) (hN : (N + 1) % 2 = 0) (τ η' M₀ M ε A : ℚ) (h : (sinCert N n J τ η' M₀ M ε A).ok)
    (hτ : (1 / 10 ^ 59 + 734 * (1 / 4) ^ J + 2 ^ (2 * J) / 2 ^ 320 : ℚ) ≤ τ) : WithinTerms ext .sin (N + 1) n (fun t => Real.sin (2 * Real.pi * t)) ε ∧ NearPoly (fun t => Real.sin (2 * Real.pi * t)) N (1 / 2) ε A := by
  have h1 := (sin_fits ext N n J hN τ η' M₀ M ε A h hτ).within h
  refine ⟨h1.1, ?_⟩
  have := h1.2
  simp only [sinCert] at this
  push_cast at this
  exact this

theorem cos_fits (ext : BdExt) (N n J : ℕ) (hN : (N + 1) % 2 = 1) (τ η' M₀ M ε A : ℚ) (h : (cosCert N n J τ η' M₀ M ε A).ok)
    (hτ : (1 / 10 ^ 59 + 1467 * (1 / 4) ^ J + 2 ^ (2 * J) / 2 ^ 320 : ℚ) ≤ τ) : (cosCert N n J τ η' M₀ M ε A).Fits ext .cos ⟨-5, 1⟩ ⟨5, 1⟩ (fun t => Real.cos (2 * Real.pi * t)) 1 0 := by
  have hlo : (⟨-5, 1⟩ : Dec).val = -(1 / 2) := by decide +kernel
  have hhi : (⟨5, 1⟩ : Dec).val = 1 / 2 := by decide +kernel
  exact ChebBudget.fits (cosCert N n J τ η' M₀ M ε A) ext .cos ⟨-5, 1⟩ ⟨5, 1⟩ rfl (by rw [hlo]; rfl) (by rw [hhi]; rfl) hN (fun t => Real.cos (2 * Real.pi * t))
    ⟨by rw [hlo, hhi], fun t => by simp only [mul_neg, Real.cos_neg]⟩ 1 0 (by simp [cosCert]) (by simp [cosCert]) (fun _ => rfl) (fun y hy => by
      have h2 := cos_cut 320 J hy
      simp only [cosCert]
      rw [zCheb_ofPoly_eval, one_mul, add_zero, show 2 * Real.pi * (((1 / 2 : ℚ) : ℝ) * y) = Real.pi * y by push_cast; ring]
      exact h2.trans (by exact_mod_cast hτ)) (by
    intro d h3 h4
    obtain ⟨y, h5, h6⟩ := cos_sample ext n h.1.2.1 h.1.2.2.1 d h3 h4
    refine ⟨y, h5, ?_⟩
    simp only [cosCert]
    push_cast
    exact h6)

theorem cos_sharp (ext : BdExt) (N n J : ℕ) (hN : (N + 1) % 2 = 1) (τ η' M₀ M ε A : ℚ) (h : (cosCert N n J τ η' M₀ M ε A).ok)
    (hτ : (1 / 10 ^ 59 + 1467 * (1 / 4) ^ J + 2 ^ (2 * J) / 2 ^ 320 : ℚ) ≤ τ) : WithinTerms ext .cos (N + 1) n (fun t => Real.cos (2 * Real.pi * t)) ε ∧ NearPoly (fun t => Real.cos (2 * Real.pi * t)) N (1 / 2) ε A := by
  have h1 := (cos_fits ext N n J hN τ η' M₀ M ε A h hτ).within h
  refine ⟨h1.1, ?_⟩
  have := h1.2
  simp only [cosCert] at this
  push_cast at this
  exact this

theorem sin_ok_12 : (sinCert 11 20 40 (7 / 10 ^ 22) (4 / 10 ^ 20) 4724 4725 (194 / 10 ^ 9) (11545 / 1000)).ok := by decide +kernel

theorem sin_sharp_12 (ext : BdExt) : WithinTerms ext .sin 12 20 (fun t => Real.sin (2 * Real.pi * t)) (194 / 10 ^ 9) ∧
    NearPoly (fun t => Real.sin (2 * Real.pi * t)) 11 (1 / 2) ((194 / 10 ^ 9 : ℚ) : ℝ) ((11545 / 1000 : ℚ) : ℝ) :=
  sin_sharp ext 11 20 40 rfl (7 / 10 ^ 22) (4 / 10 ^ 20) 4724 4725 _ _ sin_ok_12 (by decide +kernel)

theorem sin_ok_24 : (sinCert 23 40 60 (6 / 10 ^ 34) (7 / 10 ^ 34) 6197 6198 (189 / 10 ^ 22) (11549 / 1000)).ok := by decide +kernel

theorem sin_sharp_24 (ext : BdExt) : WithinTerms ext .sin 24 40 (fun t => Real.sin (2 * Real.pi * t)) (189 / 10 ^ 22) ∧
    NearPoly (fun t => Real.sin (2 * Real.pi * t)) 23 (1 / 2) ((189 / 10 ^ 22 : ℚ) : ℝ) ((11549 / 1000 : ℚ) : ℝ) :=
  sin_sharp ext 23 40 60 rfl (6 / 10 ^ 34) (7 / 10 ^ 34) 6197 6198 _ _ sin_ok_24 (by decide +kernel)

theorem cos_ok_13 : (cosCert 12 20 40 (13 / 10 ^ 22) (4 / 10 ^ 20) 5235 5236 (219 / 10 ^ 10) (11591 / 1000)).ok := by decide +kernel

theorem cos_sharp_13 (ext : BdExt) : WithinTerms ext .cos 13 20 (fun t => Real.cos (2 * Real.pi * t)) (219 / 10 ^ 10) ∧
    NearPoly (fun t => Real.cos (2 * Real.pi * t)) 12 (1 / 2) ((219 / 10 ^ 10 : ℚ) : ℝ) ((11591 / 1000 : ℚ) : ℝ) :=
  cos_sharp ext 12 20 40 rfl (13 / 10 ^ 22) (4 / 10 ^ 20) 5235 5236 _ _ cos_ok_13 (by decide +kernel)

theorem cos_ok_25 : (cosCert 24 40 60 (12 / 10 ^ 34) (13 / 10 ^ 34) 6197 6198 (115 / 10 ^ 23) (11592 / 1000)).ok := by decide +kernel

theorem cos_sharp_25 (ext : BdExt) : WithinTerms ext .cos 25 40 (fun t => Real.cos (2 * Real.pi * t)) (115 / 10 ^ 23) ∧
    NearPoly (fun t => Real.cos (2 * Real.pi * t)) 24 (1 / 2) ((115 / 10 ^ 23 : ℚ) : ℝ) ((11592 / 1000 : ℚ) : ℝ) :=
  cos_sharp ext 24 40 60 rfl (12 / 10 ^ 34) (13 / 10 ^ 34) 6197 6198 _ _ cos_ok_25 (by decide +kernel)

/-! ### `atan` -/

/-- The certificate of `atan` with `N + 1` terms and `n` digits. -/
def atanCert (N n : ℕ) (η' M₀ M ε A : ℚ) : ChebBudget :=
  ⟨N, n, 1, 160, floorCheb 160 atanChebTerm 80 0, 1, 0, 9 / 10 ^ 25, 1 / 10 ^ n, η', 1, 2, M₀, M, ε, A⟩

theorem atan_fits (ext : BdExt) (hs : SqrtOk ext) (hf : 3 ≤ ext.fuel) (N n : ℕ) (hN : (N + 1) % 2 = 0) (η' M₀ M ε A : ℚ) (h : (atanCert N n η' M₀ M ε A).ok) : (atanCert N n η' M₀ M ε A).Fits ext .atan ⟨-1, 0⟩ ⟨1, 0⟩ Real.arctan 1 0 := by
  have hlo : (⟨-1, 0⟩ : Dec).val = -1 := by decide +kernel
  have hhi : (⟨1, 0⟩ : Dec).val = 1 := by decide +kernel
  exact ChebBudget.fits (atanCert N n η' M₀ M ε A) ext .atan ⟨-1, 0⟩ ⟨1, 0⟩ rfl (by rw [hlo]; rfl) (by rw [hhi]; rfl) hN Real.arctan
    ⟨by rw [hlo, hhi], fun t => Real.arctan_neg t⟩ 1 0 (by simp [atanCert]) (by simp [atanCert]) (fun _ => rfl) (fun y hy => by
      have h2 := atan_cut 160 40 hy
      simp only [atanCert]
      rw [one_mul, add_zero, Rat.cast_one, one_mul]
      exact h2.trans (by exact_mod_cast (by decide +kernel : (2 * (172 / 1000) ^ 40 + (40 : ℕ) * (2 / 10 ^ 59) + 2 * (40 : ℕ) / 2 ^ 160 : ℚ) ≤ 9 / 10 ^ 25))) (by
    intro d h3 h4
    obtain ⟨y, h5, h6⟩ := atan_sample ext hs hf n h.1.2.1 h.1.2.2.1 d
    refine ⟨y, h5, ?_⟩
    simp only [atanCert]
    push_cast
    exact h6)

theorem atan_sharp (ext : BdExt) (hs : SqrtOk ext) (hf : 3 ≤ ext.fuel) (N n : ℕ) (hN : (N + 1) % 2 = 0) (η' M₀ M ε A : ℚ) (h : (atanCert N n η' M₀ M ε A).ok) : WithinTerms ext .atan (N + 1) n Real.arctan ε ∧ NearPoly Real.arctan N 1 ε A := by
  have h1 := (atan_fits ext hs hf N n hN η' M₀ M ε A h).within h
  refine ⟨h1.1, ?_⟩
  have := h1.2
  simp only [atanCert] at this
  push_cast at this
  exact this

theorem atan_ok_16 : (atanCert 15 20 (2 / 10 ^ 20) 501 502 (867 / 10 ^ 10) (1851 / 1000)).ok := by decide +kernel

theorem atan_sharp_16 (ext : BdExt) (hs : SqrtOk ext) (hf : 3 ≤ ext.fuel) : WithinTerms ext .atan 16 20 Real.arctan (867 / 10 ^ 10) ∧
    NearPoly Real.arctan 15 1 ((867 / 10 ^ 10 : ℚ) : ℝ) ((1851 / 1000 : ℚ) : ℝ) :=
  atan_sharp ext hs hf 15 20 rfl (2 / 10 ^ 20) 501 502 _ _ atan_ok_16

theorem atan_ok_36 : (atanCert 35 40 (10 / 10 ^ 25) (155 * 10 ^ 5) (16 * 10 ^ 6) (889 / 10 ^ 18) (2255 / 1000)).ok := by decide +kernel

theorem atan_sharp_36 (ext : BdExt) (hs : SqrtOk ext) (hf : 3 ≤ ext.fuel) : WithinTerms ext .atan 36 40 Real.arctan (889 / 10 ^ 18) ∧
    NearPoly Real.arctan 35 1 ((889 / 10 ^ 18 : ℚ) : ℝ) ((2255 / 1000 : ℚ) : ℝ) :=
  atan_sharp ext hs hf 35 40 rfl (10 / 10 ^ 25) (155 * 10 ^ 5) (16 * 10 ^ 6) _ _ atan_ok_36

/-! ### `tan` -/

/-- The certificate of `tan` with `N + 1` terms and `n` digits. -/
def tanCert (N n : ℕ) (η' M₀ M ε A : ℚ) : ChebBudget :=
  ⟨N, n, 499999 / 10 ^ 6, 320, chebOfPoly (floorList 320 tanTerm 80 0), 1, 0, 5 / 10 ^ 28, 10 ^ 7 * (1 / 10 ^ n), η', 1, 31 / 10, M₀, M, ε, A⟩

theorem tan_fits (ext : BdExt) (N n : ℕ) (hn : 7 ≤ n) (hN : (N + 1) % 2 = 0) (η' M₀ M ε A : ℚ) (h : (tanCert N n η' M₀ M ε A).ok) : (tanCert N n η' M₀ M ε A).Fits ext .tan ⟨-499999, 6⟩ ⟨499999, 6⟩ (fun x => Real.tan (Real.pi * x) * (x ^ 2 - 1 / 4)) 1 0 := by
  have hlo : (⟨-499999, 6⟩ : Dec).val = -(499999 / 10 ^ 6) := by decide +kernel
  have hhi : (⟨499999, 6⟩ : Dec).val = 499999 / 10 ^ 6 := by decide +kernel
  exact ChebBudget.fits (tanCert N n η' M₀ M ε A) ext .tan ⟨-499999, 6⟩ ⟨499999, 6⟩ rfl (by rw [hlo]; rfl) (by rw [hhi]; rfl) hN
    (fun x => Real.tan (Real.pi * x) * (x ^ 2 - 1 / 4)) ⟨by rw [hlo, hhi], fun t => by simp [Real.tan_neg]⟩ 1 0 (by simp [tanCert]) (by simp [tanCert]) (fun _ => rfl) (fun y hy => by
      have h2 := tan_cut_unit hy
      simp only [tanCert]
      rw [zCheb_ofPoly_eval, one_mul, add_zero]
      push_cast
      exact h2) (by
    intro d h3 h4
    obtain ⟨y, h5, h6⟩ := tan_sample ext n hn h.1.2.2.1 d (by
      rw [hlo] at h3
      rw [hhi] at h4
      have h3' := (Rat.cast_le (K := ℝ)).2 h3
      have h4' := (Rat.cast_le (K := ℝ)).2 h4
      push_cast at h3' h4'
      rw [abs_le]
      exact ⟨h3', h4'⟩)
    refine ⟨y, h5, ?_⟩
    simp only [tanCert]
    push_cast
    exact h6)

theorem tan_sharp (ext : BdExt) (N n : ℕ) (hn : 7 ≤ n) (hN : (N + 1) % 2 = 0) (η' M₀ M ε A : ℚ) (h : (tanCert N n η' M₀ M ε A).ok) : WithinTerms ext .tan (N + 1) n (fun x => Real.tan (Real.pi * x) * (x ^ 2 - 1 / 4)) ε ∧
      NearPoly (fun x => Real.tan (Real.pi * x) * (x ^ 2 - 1 / 4)) N (499999 / 10 ^ 6) ε A := by
  have h1 := (tan_fits ext N n hn hN η' M₀ M ε A h).within h
  refine ⟨h1.1, ?_⟩
  have := h1.2
  simp only [tanCert] at this
  push_cast at this
  exact this

theorem tan_ok_12 : (tanCert 11 20 (11 / 10 ^ 14) 20 21 (419 / 10 ^ 12) (468 / 1000)).ok := by decide +kernel

theorem tan_sharp_12 (ext : BdExt) : WithinTerms ext .tan 12 20 (fun x => Real.tan (Real.pi * x) * (x ^ 2 - 1 / 4)) (419 / 10 ^ 12) ∧
    NearPoly (fun x => Real.tan (Real.pi * x) * (x ^ 2 - 1 / 4)) 11 (499999 / 10 ^ 6) ((419 / 10 ^ 12 : ℚ) : ℝ) ((468 / 1000 : ℚ) : ℝ) :=
  tan_sharp ext 11 20 (by norm_num) rfl (11 / 10 ^ 14) 20 21 _ _ tan_ok_12

theorem tan_ok_24 : (tanCert 23 40 (6 / 10 ^ 28) 40 42 (270 / 10 ^ 21) (468 / 1000)).ok := by decide +kernel

theorem tan_sharp_24 (ext : BdExt) : WithinTerms ext .tan 24 40 (fun x => Real.tan (Real.pi * x) * (x ^ 2 - 1 / 4)) (270 / 10 ^ 21) ∧
    NearPoly (fun x => Real.tan (Real.pi * x) * (x ^ 2 - 1 / 4)) 23 (499999 / 10 ^ 6) ((270 / 10 ^ 21 : ℚ) : ℝ) ((468 / 1000 : ℚ) : ℝ) :=
  tan_sharp ext 23 40 (by norm_num) rfl (6 / 10 ^ 28) 40 42 _ _ tan_ok_24

/-! ### Both bounds -/

/-- The distance is at most `ε`, and somewhere at least `ε'`. -/
def Between (ext : BdExt) (s : ApproxSpec) (k n : ℕ) (f : ℝ → ℝ) (ε' ε : ℚ) : Prop :=
  Within ext s k n f ε ∧ ∃ t, FarAt ext s k n f t ε'

/-- One polynomial is within `ε` everywhere and `ε'` away somewhere. -/
theorem Between.spell {ext : BdExt} {s : ApproxSpec} {k n : ℕ} {f : ℝ → ℝ} {ε' ε : ℚ} (h : Between ext s k n f ε' ε) :
    ∃ lo hi r, s.bounds = some (lo, hi) ∧ approx ext s.target k lo hi [s.var] s.parity n = .ok r ∧
      (∀ I : Interp ℝ, PolyInterp I (fun q : ℚ => (q : ℝ)) → I.var [s.var] ∈ Set.Icc (lo.val : ℝ) hi.val → |r.denote I - f (I.var [s.var])| ≤ ε) ∧
      ∃ t ∈ Set.Icc (lo.val : ℝ) hi.val, ∀ I : Interp ℝ, PolyInterp I (fun q : ℚ => (q : ℝ)) → I.var [s.var] = t → (ε' : ℝ) ≤ |r.denote I - f t| := by
  obtain ⟨⟨lo, hi, r, h1, h2, h3⟩, t, lo', hi', r', h1', h2', h4, h5⟩ := h
  rw [h1] at h1'
  injection h1' with e
  injection e with e1 e2
  subst e1 e2
  rw [h2] at h2'
  injection h2' with e
  subst e
  exact ⟨lo, hi, r, h1, h2, h3, t, h4, h5⟩

theorem inv_log_two_ge : ((14426 / 10000 : ℚ) : ℝ) ≤ |1 / Real.log 2| := by
  have h := Real.log_two_lt_d9
  have h' := Real.log_two_gt_d9
  rw [abs_of_pos (one_div_pos.2 (by linarith)), le_div_iff₀ (by linarith)]
  push_cast
  linarith

theorem sin_far_12 (ext : BdExt) : FarAt ext .sin 12 20 (fun t => Real.sin (2 * Real.pi * t)) (((1 / 2 : ℚ) : ℝ) * ((193 / 256 : ℚ) : ℝ)) (188 / 10 ^ 9) :=
  (sin_fits ext 11 20 40 rfl (7 / 10 ^ 22) (4 / 10 ^ 20) 4724 4725 (194 / 10 ^ 9) (11545 / 1000) sin_ok_12 (by decide +kernel)).farAt sin_ok_12 (by decide +kernel) (by decide +kernel) (193 / 256) (by decide +kernel) 1 (188 / 10 ^ 9) (by norm_num) (by decide +kernel)

theorem sin_far_24 (ext : BdExt) : FarAt ext .sin 24 40 (fun t => Real.sin (2 * Real.pi * t)) (((1 / 2 : ℚ) : ℝ) * ((187 / 256 : ℚ) : ℝ)) (187 / 10 ^ 22) :=
  (sin_fits ext 23 40 60 rfl (6 / 10 ^ 34) (7 / 10 ^ 34) 6197 6198 (189 / 10 ^ 22) (11549 / 1000) sin_ok_24 (by decide +kernel)).farAt sin_ok_24 (by decide +kernel) (by decide +kernel) (187 / 256) (by decide +kernel) 1 (187 / 10 ^ 22) (by norm_num) (by decide +kernel)

/-- **C98** `sin`, as the library asks for it: in both widths the distance is known to about a fifth. -/
theorem C98_sin (ext : BdExt) :
    Between ext .sin 12 20 (fun t => Real.sin (2 * Real.pi * t)) (188 / 10 ^ 9) (194 / 10 ^ 9) ∧ Between ext .sin 24 40 (fun t => Real.sin (2 * Real.pi * t)) (187 / 10 ^ 22) (189 / 10 ^ 22) :=
  ⟨⟨(sin_sharp_12 ext).1.within, _, sin_far_12 ext⟩, ⟨(sin_sharp_24 ext).1.within, _, sin_far_24 ext⟩⟩

example : Between goodExt .sin 24 40 (fun t => Real.sin (2 * Real.pi * t)) (187 / 10 ^ 22) (189 / 10 ^ 22) := (C98_sin goodExt).2

theorem cos_far_13 (ext : BdExt) : FarAt ext .cos 13 20 (fun t => Real.cos (2 * Real.pi * t)) (((1 / 2 : ℚ) : ℝ) * ((157 / 256 : ℚ) : ℝ)) (210 / 10 ^ 10) :=
  (cos_fits ext 12 20 40 rfl (13 / 10 ^ 22) (4 / 10 ^ 20) 5235 5236 (219 / 10 ^ 10) (11591 / 1000) cos_ok_13 (by decide +kernel)).farAt cos_ok_13 (by decide +kernel) (by decide +kernel) (157 / 256) (by decide +kernel) 1 (210 / 10 ^ 10) (by norm_num) (by decide +kernel)

theorem cos_far_25 (ext : BdExt) : FarAt ext .cos 25 40 (fun t => Real.cos (2 * Real.pi * t)) (((1 / 2 : ℚ) : ℝ) * ((169 / 256 : ℚ) : ℝ)) (112 / 10 ^ 23) :=
  (cos_fits ext 24 40 60 rfl (12 / 10 ^ 34) (13 / 10 ^ 34) 6197 6198 (115 / 10 ^ 23) (11592 / 1000) cos_ok_25 (by decide +kernel)).farAt cos_ok_25 (by decide +kernel) (by decide +kernel) (169 / 256) (by decide +kernel) 1 (112 / 10 ^ 23) (by norm_num) (by decide +kernel)

/-- **C98** `cos`, as the library asks for it: in both widths the distance is known to about a fifth. -/
theorem C98_cos (ext : BdExt) :
    Between ext .cos 13 20 (fun t => Real.cos (2 * Real.pi * t)) (210 / 10 ^ 10) (219 / 10 ^ 10) ∧ Between ext .cos 25 40 (fun t => Real.cos (2 * Real.pi * t)) (112 / 10 ^ 23) (115 / 10 ^ 23) :=
  ⟨⟨(cos_sharp_13 ext).1.within, _, cos_far_13 ext⟩, ⟨(cos_sharp_25 ext).1.within, _, cos_far_25 ext⟩⟩

example : Between goodExt .cos 25 40 (fun t => Real.cos (2 * Real.pi * t)) (112 / 10 ^ 23) (115 / 10 ^ 23) := (C98_cos goodExt).2

theorem tan_far_12 (ext : BdExt) : FarAt ext .tan 12 20 (fun x => Real.tan (Real.pi * x) * (x ^ 2 - 1 / 4)) (((499999 / 10 ^ 6 : ℚ) : ℝ) * ((193 / 256 : ℚ) : ℝ)) (397 / 10 ^ 12) :=
  (tan_fits ext 11 20 (by norm_num) rfl (11 / 10 ^ 14) 20 21 (419 / 10 ^ 12) (468 / 1000) tan_ok_12).farAt tan_ok_12 (by decide +kernel) (by decide +kernel) (193 / 256) (by decide +kernel) 1 (397 / 10 ^ 12) (by norm_num) (by decide +kernel)

theorem tan_far_24 (ext : BdExt) : FarAt ext .tan 24 40 (fun x => Real.tan (Real.pi * x) * (x ^ 2 - 1 / 4)) (((499999 / 10 ^ 6 : ℚ) : ℝ) * ((187 / 256 : ℚ) : ℝ)) (261 / 10 ^ 21) :=
  (tan_fits ext 23 40 (by norm_num) rfl (6 / 10 ^ 28) 40 42 (270 / 10 ^ 21) (468 / 1000) tan_ok_24).farAt tan_ok_24 (by decide +kernel) (by decide +kernel) (187 / 256) (by decide +kernel) 1 (261 / 10 ^ 21) (by norm_num) (by decide +kernel)

/-- **C98** `tan`, as the library asks for it: in both widths the distance is known to about a fifth. -/
theorem C98_tan (ext : BdExt) :
    Between ext .tan 12 20 (fun x => Real.tan (Real.pi * x) * (x ^ 2 - 1 / 4)) (397 / 10 ^ 12) (419 / 10 ^ 12) ∧ Between ext .tan 24 40 (fun x => Real.tan (Real.pi * x) * (x ^ 2 - 1 / 4)) (261 / 10 ^ 21) (270 / 10 ^ 21) :=
  ⟨⟨(tan_sharp_12 ext).1.within, _, tan_far_12 ext⟩, ⟨(tan_sharp_24 ext).1.within, _, tan_far_24 ext⟩⟩

example : Between goodExt .tan 24 40 (fun x => Real.tan (Real.pi * x) * (x ^ 2 - 1 / 4)) (261 / 10 ^ 21) (270 / 10 ^ 21) := (C98_tan goodExt).2

theorem log2_far_10 (ext : BdExt) (hf : 5 ≤ ext.fuel) : FarAt ext .log2 10 20 (fun t => Real.logb 2 (t + 3 / 2)) (((1 / 2 : ℚ) : ℝ) * ((-(87 / 256) : ℚ) : ℝ)) (130 / 10 ^ 10) :=
  (log2_fits ext hf 9 20 (28 / 10 ^ 20) 5 6 (152 / 10 ^ 10) (1170 / 1000) log2_ok_10).farAt log2_ok_10 (by decide +kernel) (by decide +kernel) (-(87 / 256)) (by decide +kernel) (14426 / 10000) (130 / 10 ^ 10) inv_log_two_ge (by decide +kernel)

theorem log2_far_20 (ext : BdExt) (hf : 5 ≤ ext.fuel) : FarAt ext .log2 20 40 (fun t => Real.logb 2 (t + 3 / 2)) (((1 / 2 : ℚ) : ℝ) * ((-(83 / 256) : ℚ) : ℝ)) (144 / 10 ^ 18) :=
  (log2_fits ext hf 19 40 (8 / 10 ^ 39) 6 7 (169 / 10 ^ 18) (1170 / 1000) log2_ok_20).farAt log2_ok_20 (by decide +kernel) (by decide +kernel) (-(83 / 256)) (by decide +kernel) (14426 / 10000) (144 / 10 ^ 18) inv_log_two_ge (by decide +kernel)

/-- **C98** `log2`, as the library asks for it: in both widths the distance is known to about a fifth. -/
theorem C98_log2 (ext : BdExt) (hf : 5 ≤ ext.fuel) :
    Between ext .log2 10 20 (fun t => Real.logb 2 (t + 3 / 2)) (130 / 10 ^ 10) (152 / 10 ^ 10) ∧ Between ext .log2 20 40 (fun t => Real.logb 2 (t + 3 / 2)) (144 / 10 ^ 18) (169 / 10 ^ 18) :=
  ⟨⟨(log2_sharp_10 ext hf).1.within, _, log2_far_10 ext hf⟩, ⟨(log2_sharp_20 ext hf).1.within, _, log2_far_20 ext hf⟩⟩

example : Between goodExt .log2 20 40 (fun t => Real.logb 2 (t + 3 / 2)) (144 / 10 ^ 18) (169 / 10 ^ 18) := (C98_log2 goodExt (by decide)).2

theorem atan_far_16 (ext : BdExt) (hs : SqrtOk ext) (hf : 3 ≤ ext.fuel) : FarAt ext .atan 16 20 Real.arctan (((1 : ℚ) : ℝ) * ((75 / 128 : ℚ) : ℝ)) (747 / 10 ^ 10) :=
  (atan_fits ext hs hf 15 20 rfl (2 / 10 ^ 20) 501 502 (867 / 10 ^ 10) (1851 / 1000) atan_ok_16).farAt atan_ok_16 (by decide +kernel) (by decide +kernel) (75 / 128) (by decide +kernel) 1 (747 / 10 ^ 10) (by norm_num) (by decide +kernel)

theorem atan_far_36 (ext : BdExt) (hs : SqrtOk ext) (hf : 3 ≤ ext.fuel) : FarAt ext .atan 36 40 Real.arctan (((1 : ℚ) : ℝ) * ((75 / 128 : ℚ) : ℝ)) (760 / 10 ^ 18) :=
  (atan_fits ext hs hf 35 40 rfl (10 / 10 ^ 25) (155 * 10 ^ 5) (16 * 10 ^ 6) (889 / 10 ^ 18) (2255 / 1000) atan_ok_36).farAt atan_ok_36 (by decide +kernel) (by decide +kernel) (75 / 128) (by decide +kernel) 1 (760 / 10 ^ 18) (by norm_num) (by decide +kernel)

/-- **C98** `atan`, as the library asks for it: in both widths the distance is known to about a fifth. -/
theorem C98_atan (ext : BdExt) (hs : SqrtOk ext) (hf : 3 ≤ ext.fuel) :
    Between ext .atan 16 20 Real.arctan (747 / 10 ^ 10) (867 / 10 ^ 10) ∧ Between ext .atan 36 40 Real.arctan (760 / 10 ^ 18) (889 / 10 ^ 18) :=
  ⟨⟨(atan_sharp_16 ext hs hf).1.within, _, atan_far_16 ext hs hf⟩, ⟨(atan_sharp_36 ext hs hf).1.within, _, atan_far_36 ext hs hf⟩⟩

example : Between goodExt .atan 36 40 Real.arctan (760 / 10 ^ 18) (889 / 10 ^ 18) := (C98_atan goodExt goodExt_ok (by decide)).2

theorem asin_gap_16 : (122 / 10 ^ 10 : ℚ) + (asinCert 15 20 (11 / 10 ^ 21) 560 561 (143 / 10 ^ 10) (789 / 1000)).τ + (asinCert 15 20 (11 / 10 ^ 21) 560 561 (143 / 10 ^ 10) (789 / 1000)).residual ≤ 1 * |(asinCert 15 20 (11 / 10 ^ 21) 560 561 (143 / 10 ^ 10) (789 / 1000)).gap (191 / 256)| := by decide +kernel

theorem asin_far_16 (ext : BdExt) (hs : SqrtOk ext) (hf : 3 ≤ ext.fuel) : FarAt ext .asin 16 20 Real.arcsin (((70710678118654752440 / 10 ^ 20 : ℚ) : ℝ) * ((191 / 256 : ℚ) : ℝ)) (122 / 10 ^ 10) :=
  (asin_fits ext hs hf .asin rfl rfl rfl rfl 15 20 rfl (11 / 10 ^ 21) 560 561 (143 / 10 ^ 10) (789 / 1000) asin_ok_16).farAt asin_ok_16 (by decide +kernel) (by decide +kernel) (191 / 256) (by decide +kernel) 1 (122 / 10 ^ 10) (by norm_num) asin_gap_16

theorem asin_far_36 (ext : BdExt) (hs : SqrtOk ext) (hf : 3 ≤ ext.fuel) : FarAt ext .asin 36 40 Real.arcsin (((70710678118654752440 / 10 ^ 20 : ℚ) : ℝ) * ((25 / 32 : ℚ) : ℝ)) (846 / 10 ^ 19) :=
  (asin_fits ext hs hf .asin rfl rfl rfl rfl 35 40 rfl (13 / 10 ^ 25) (37 * 10 ^ 7) (5 * 10 ^ 9) (986 / 10 ^ 19) (787 / 1000) asin_ok_36).farAt asin_ok_36 (by decide +kernel) (by decide +kernel) (25 / 32) (by decide +kernel) 1 (846 / 10 ^ 19) (by norm_num) (by decide +kernel)

/-- **C98** `asin`, as the library asks for it: in both widths the distance is known to about a fifth. -/
theorem C98_asin (ext : BdExt) (hs : SqrtOk ext) (hf : 3 ≤ ext.fuel) :
    Between ext .asin 16 20 Real.arcsin (122 / 10 ^ 10) (143 / 10 ^ 10) ∧ Between ext .asin 36 40 Real.arcsin (846 / 10 ^ 19) (986 / 10 ^ 19) :=
  ⟨⟨(asin_sharp_16 ext hs hf .asin rfl rfl rfl rfl).1.within, _, asin_far_16 ext hs hf⟩, ⟨(asin_sharp_36 ext hs hf).1.within, _, asin_far_36 ext hs hf⟩⟩

example : Between goodExt .asin 36 40 Real.arcsin (846 / 10 ^ 19) (986 / 10 ^ 19) := (C98_asin goodExt goodExt_ok (by decide)).2

theorem acos_far_16 (ext : BdExt) (hs : SqrtOk ext) (hf : 3 ≤ ext.fuel) : FarAt ext .acos 16 20 Real.arcsin (((70710678118654752440 / 10 ^ 20 : ℚ) : ℝ) * ((191 / 256 : ℚ) : ℝ)) (122 / 10 ^ 10) :=
  (asin_fits ext hs hf .acos rfl rfl rfl rfl 15 20 rfl (11 / 10 ^ 21) 560 561 (143 / 10 ^ 10) (789 / 1000) asin_ok_16).farAt asin_ok_16 (by decide +kernel) (by decide +kernel) (191 / 256) (by decide +kernel) 1 (122 / 10 ^ 10) (by norm_num) asin_gap_16

theorem acos_far_34 (ext : BdExt) (hs : SqrtOk ext) (hf : 3 ≤ ext.fuel) : FarAt ext .acos 34 40 Real.arcsin (((70710678118654752440 / 10 ^ 20 : ℚ) : ℝ) * ((209 / 256 : ℚ) : ℝ)) (536 / 10 ^ 18) :=
  (asin_fits ext hs hf .acos rfl rfl rfl rfl 33 40 rfl (13 / 10 ^ 25) (93 * 10 ^ 6) (5 * 10 ^ 8) (625 / 10 ^ 18) (787 / 1000) acos_ok_34).farAt acos_ok_34 (by decide +kernel) (by decide +kernel) (209 / 256) (by decide +kernel) 1 (536 / 10 ^ 18) (by norm_num) (by decide +kernel)

/-- **C98** `acos`, as the library asks for it: in both widths the distance is known to about a fifth. -/
theorem C98_acos (ext : BdExt) (hs : SqrtOk ext) (hf : 3 ≤ ext.fuel) :
    Between ext .acos 16 20 Real.arcsin (122 / 10 ^ 10) (143 / 10 ^ 10) ∧ Between ext .acos 34 40 Real.arcsin (536 / 10 ^ 18) (625 / 10 ^ 18) :=
  ⟨⟨(asin_sharp_16 ext hs hf .acos rfl rfl rfl rfl).1.within, _, acos_far_16 ext hs hf⟩, ⟨(acos_sharp_34 ext hs hf).1.within, _, acos_far_34 ext hs hf⟩⟩

example : Between goodExt .acos 34 40 Real.arcsin (536 / 10 ^ 18) (625 / 10 ^ 18) := (C98_acos goodExt goodExt_ok (by decide)).2

end Verif

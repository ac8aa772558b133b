import Verif.Lemmas.Quantile
import Verif.Props.Normal
import Verif.Props.Inverse
import Verif.Props.EvalReal

/-!
# C89: the Newton iteration of `qnorm`

`qnorm` (`bdmath.rs:367-395`) starts at 0 and loops until the computed `pnorm` agrees with the requested probability.  For the standard
distribution it always returns; for a mean far from 0 it can panic.
-/

namespace Verif
open Bd Dec

theorem expBound_16 (n : ℕ) (h20 : 20 ≤ n) (h80 : n ≤ 80) : expBound 16 n (2 * n + 11 * 16 + 3) ≤ 0.0501 * (1 / 10 ^ n) := by
  unfold expBound
  have hE : Real.exp ((16 : ℕ) : ℝ) ≤ 10 ^ 7 := by
    rw [show ((16 : ℕ) : ℝ) = ((16 : ℕ) : ℝ) * 1 by norm_num, Real.exp_nat_mul]
    have := Real.exp_one_lt_d9
    calc Real.exp 1 ^ 16 ≤ 2.7182818286 ^ 16 := by gcongr
      _ ≤ 10 ^ 7 := by norm_num
  have hE0 := Real.exp_pos ((16 : ℕ) : ℝ)
  generalize Real.exp ((16 : ℕ) : ℝ) = e at *
  have hw1 : (1 : ℝ) / 10 ^ n ≤ 1 / 10 ^ 20 := by
    apply one_div_le_one_div_of_le (by positivity); exact pow_le_pow_right₀ (by norm_num) h20
  have hw0 : (1 : ℝ) / 10 ^ 80 ≤ 1 / 10 ^ n := by
    apply one_div_le_one_div_of_le (by positivity); exact pow_le_pow_right₀ (by norm_num) h80
  have h100 : (1 : ℝ) / 100 ^ n = 1 / 10 ^ n * (1 / 10 ^ n) := by
    rw [show (100 : ℝ) = 10 * 10 by norm_num, mul_pow]; field_simp
  have e1 : (1 : ℝ) / 20 / 10 ^ n = 1 / 20 * (1 / 10 ^ n) := by ring
  have hK : ((2 * n + 11 * 16 + 3 : ℕ) : ℝ) ≤ 339 := by exact_mod_cast (by omega : 2 * n + 11 * 16 + 3 ≤ 339)
  rw [h100, e1]
  have hwp : (0 : ℝ) < 1 / 10 ^ n := by positivity
  generalize (1 : ℝ) / 10 ^ n = w at *
  have t2 : 1 / 2 * (1 / 10 ^ 99) * e ≤ 1 / 10 ^ 5 * w := by
    calc 1 / 2 * (1 / 10 ^ 99) * e ≤ 1 / 2 * (1 / 10 ^ 99) * 10 ^ 7 := by gcongr
      _ ≤ 1 / 10 ^ 5 * (1 / 10 ^ 80) := by norm_num
      _ ≤ _ := by gcongr
  have t3 : e + ((2 * n + 11 * 16 + 3 : ℕ) : ℝ) / 2 + e * (1 + e / 2) ≤ 10 ^ 14 := by
    have : e * (1 + e / 2) ≤ 10 ^ 7 * (1 + 10 ^ 7 / 2) := by gcongr
    generalize ((2 * n + 11 * 16 + 3 : ℕ) : ℝ) = K at *
    norm_num at this hE ⊢; linarith
  have t4 : w * w * (e + ((2 * n + 11 * 16 + 3 : ℕ) : ℝ) / 2 + e * (1 + e / 2)) ≤ 1 / 10 ^ 5 * w := by
    calc w * w * (e + ((2 * n + 11 * 16 + 3 : ℕ) : ℝ) / 2 + e * (1 + e / 2)) ≤ w * (1 / 10 ^ 20) * 10 ^ 14 := by gcongr
      _ ≤ 1 / 10 ^ 5 * w := by linarith
  linarith

theorem gaussInt_lt (z : ℝ) : |gaussInt z| ≤ 0.9 := by
  have h := normalCdf_eq (z * √2)
  have hs : √(2 : ℝ) ≠ 0 := by positivity
  rw [mul_div_cancel_right₀ _ hs] at h
  have h1 := normalCdf_lt_one (z * √2)
  have h0 := normalCdf_pos (z * √2)
  have hp : √Real.pi ≤ 1.8 := by apply Real.sqrt_le_iff.2; norm_num; linarith [Real.pi_lt_d2]
  have hp0 : 0 < √Real.pi := by have := Real.pi_pos; positivity
  have hg : gaussInt z = (normalCdf (z * √2) - 1 / 2) * √Real.pi := by rw [h]; field_simp; ring
  rw [hg, abs_mul, abs_of_pos hp0]
  have : |normalCdf (z * √2) - 1 / 2| ≤ 1 / 2 := abs_le.2 ⟨by linarith, by linarith⟩
  calc |normalCdf (z * √2) - 1 / 2| * √Real.pi ≤ 1 / 2 * 1.8 := by gcongr
    _ = 0.9 := by norm_num

section
variable {ext : BdExt} {n : ℕ} {mean sd : Dec}

/-- `pnorm` and `dnorm` of the standard distribution on `[-4, 4]`, to a fraction of the last digit. -/
theorem standard_near (hs : SqrtOk ext) (hf : 1 ≤ ext.fuel) (h20 : 20 ≤ n) (h80 : n ≤ 80) (hm : mean.val = 0) (hsd : sd.val = 1)
    (g : Dec) (hg : |(g.val : ℝ)| ≤ 4) :
    (∃ p, Bd.pnorm ext g mean sd n = .ok p ∧ |(p.val : ℝ) - normalCdf g.val| ≤ 0.14 * (1 / 10 ^ n)) ∧
      ∃ d, Bd.dnorm ext g mean sd n = .ok d ∧ |(d.val : ℝ) - normalPdf g.val| ≤ 0.082 * (1 / 10 ^ n) := by
  have hu : (g.val : ℝ) = (g.val - mean.val) / sd.val := by rw [hm, hsd]; push_cast; ring
  have hx : (g.val : ℝ) ^ 2 ≤ ((16 : ℕ) : ℝ) := by
    rw [← sq_abs]; push_cast; nlinarith [abs_nonneg (g.val : ℝ)]
  have hsd0 : sd.val ≠ 0 := by rw [hsd]; norm_num
  obtain ⟨p, hp, hpe⟩ := pnorm_error_fine ext hs hf g mean sd n 16 (by omega) (by norm_num) hsd0 _ hu hx (by omega) (by omega)
  obtain ⟨d, hd, hde⟩ := dnorm_error ext hs hf g mean sd n 16 (by omega) (by norm_num) hsd0 _ hu hx (by omega) (by omega)
  have hE := expBound_16 n h20 h80
  have hP : piE n = 1 / 2 * (1 / 10 ^ n) := by unfold piE; rw [if_pos (by omega)]; ring
  have hw0 : (1 : ℝ) / 10 ^ 80 ≤ 1 / 10 ^ n := by
    apply one_div_le_one_div_of_le (by positivity); exact pow_le_pow_right₀ (by norm_num) h80
  have hgi := gaussInt_lt ((g.val : ℝ) / √2)
  rw [hP] at hpe hde
  have hE0 : 0 ≤ expBound 16 n (2 * n + 11 * 16 + 3) := by unfold expBound; have := Real.exp_pos ((16 : ℕ) : ℝ); positivity
  refine ⟨⟨p, hp, hpe.trans ?_⟩, ⟨d, hd, ?_⟩⟩
  · generalize (1 : ℝ) / 10 ^ n = w at *
    generalize expBound 16 n (2 * n + 11 * 16 + 3) = E at *
    have hw : 0 ≤ w := le_trans (by positivity) hw0
    have h97 : (1 : ℝ) / 10 ^ 97 ≤ 1 / 10 ^ 10 * w := by
      calc (1 : ℝ) / 10 ^ 97 ≤ 1 / 10 ^ 10 * (1 / 10 ^ 80) := by norm_num
        _ ≤ _ := by gcongr
    have a1 : (1 / 10 * (1 / 2 * w) + 1 / 10 ^ 97) * |gaussInt ((g.val : ℝ) / √2)| ≤ (1 / 10 * (1 / 2 * w) + 1 / 10 ^ 10 * w) * 0.9 := by gcongr
    have a2 : |(g.val : ℝ)| * (5 * (1 / 10 ^ 97) + 11 / 25 * E) ≤ 4 * (5 * (1 / 10 ^ 10 * w) + 11 / 25 * (0.0501 * w)) := by gcongr
    norm_num at a1 a2 ⊢; linarith
  · rw [hsd] at hde
    push_cast at hde
    rw [abs_one, div_one, div_one, one_mul] at hde
    refine hde.trans ?_
    generalize (1 : ℝ) / 10 ^ n = w at *
    push_cast at hE hE0
    generalize expBound 16 n (2 * n + 11 * 16 + 3) = E at *
    have hw : 0 ≤ w := le_trans (by positivity) hw0
    have h96 : ((16 : ℝ) + 1) / 10 ^ 96 ≤ 1 / 10 ^ 10 * w := by
      calc ((16 : ℝ) + 1) / 10 ^ 96 ≤ 1 / 10 ^ 10 * (1 / 10 ^ 80) := by norm_num
        _ ≤ _ := by gcongr
    norm_num at h96 hE ⊢; linarith

/-- One pass of the loop, seen from the side (`σ = ±1`) on which the answer lies. -/
theorem qnorm_pass (hs : SqrtOk ext) (hf : 1 ≤ ext.fuel) (h20 : 20 ≤ n) (h80 : n ≤ 80) (hm : mean.val = 0) (hsd : sd.val = 1)
    {σ X : ℝ} (hσ : σ = 1 ∨ σ = -1) (x : Dec) (hX : ∀ u, X - normalCdf (σ * u) = σ * (x.val - normalCdf u)) (hX1 : X ≤ 0.99994)
    (fuel : ℕ) (g : Dec) (hg0 : 0 ≤ σ * g.val) (hg4 : σ * g.val ≤ 4) (hlow : -(0.25 * (1 / 10 ^ n)) ≤ X - normalCdf (σ * g.val)) :
    qnormLoop ext x mean sd n (fuel + 1) g = .ok g ∨
      0.3 * (1 / 10 ^ n) < X - normalCdf (σ * g.val) ∧
      ∃ g' : Dec, qnormLoop ext x mean sd n (fuel + 1) g = qnormLoop ext x mean sd n fuel g' ∧ 0 ≤ σ * g'.val ∧ σ * g'.val ≤ 4 ∧
        -(0.25 * (1 / 10 ^ n)) ≤ X - normalCdf (σ * g'.val) ∧
        (X - normalCdf (σ * g.val) ≤ 10 ^ 6 * (1 / 10 ^ n) → X - normalCdf (σ * g'.val) ≤ 0.3 * (1 / 10 ^ n)) ∧
        (10 ^ 6 * (1 / 10 ^ n) ≤ X - normalCdf (σ * g.val) → X - normalCdf (σ * g'.val) ≤ 0.84 * (X - normalCdf (σ * g.val))) := by
  have hσ1 : |σ| = 1 := by rcases hσ with h | h <;> rw [h] <;> norm_num
  have hσσ : σ * σ = 1 := by rcases hσ with h | h <;> rw [h] <;> norm_num
  have hga : |(g.val : ℝ)| ≤ 4 := by
    have : |(g.val : ℝ)| = |σ * g.val| := by rw [abs_mul, hσ1, one_mul]
    rw [this, abs_of_nonneg hg0]; exact hg4
  obtain ⟨⟨p, hp, hpe⟩, d, hd, hde⟩ := standard_near hs hf h20 h80 hm hsd g hga
  have hw1 : (1 : ℝ) / 10 ^ n ≤ 1 / 10 ^ 20 := by
    apply one_div_le_one_div_of_le (by positivity); exact pow_le_pow_right₀ (by norm_num) h20
  have hw0 : (1 : ℝ) / 10 ^ 80 ≤ 1 / 10 ^ n := by
    apply one_div_le_one_div_of_le (by positivity); exact pow_le_pow_right₀ (by norm_num) h80
  have hwp : (0 : ℝ) < 1 / 10 ^ n := by positivity
  have hphi : normalPdf (σ * g.val) = normalPdf g.val := by
    rcases hσ with h | h <;> rw [h]
    · rw [one_mul]
    · rw [neg_one_mul, normalPdf_neg]
  have hpg := normalPdf_ge hg0 hg4
  rw [hphi] at hpg
  have hdpos : (0 : ℝ) < d.val := by
    have := (abs_le.1 hde).1
    have e20 : (1 : ℝ) / 10 ^ 20 ≤ 1 / 10 ^ 10 := by norm_num
    have h3 : (0.082 : ℝ) * (1 / 10 ^ n) ≤ 1 / 10 ^ 10 := by linarith
    have e10 : (1 : ℝ) / 10 ^ 10 < 1 / 8000 := by norm_num
    linarith
  have hd0 : d.val ≠ 0 := by intro h; rw [h] at hdpos; simp at hdpos
  -- the residual as the program sees it
  have het : |σ * (x.val - p.val) - (X - normalCdf (σ * g.val))| ≤ 0.14 * (1 / 10 ^ n) := by
    rw [hX, ← mul_sub, abs_mul, hσ1, one_mul, show (x.val : ℝ) - p.val - (x.val - normalCdf g.val) = -(p.val - normalCdf g.val) by ring, abs_neg]
    exact hpe
  rw [qnormLoop, hp, Res.ok_bind]
  by_cases hz : (round (p - x).abs n).isZero = true
  · left; rw [if_pos hz]; rfl
  · right
    rw [if_neg hz, hd, Res.ok_bind]
    obtain ⟨q, hq, hqe⟩ := div_real (p - x) d hd0
    rw [hq, Res.ok_bind]
    have hz' : 1 / 2 * (1 / 10 ^ n) ≤ |σ * ((x.val : ℝ) - p.val)| := by
      have h := mt (round_abs_zero (p - x) n (by omega)).2 hz
      rw [not_lt, Dec.val_sub] at h
      have h' : ((1 / 2 * 10 ^ (-(n : ℤ)) : ℚ) : ℝ) ≤ ((|p.val - x.val| : ℚ) : ℝ) := by exact_mod_cast h
      push_cast at h'
      rw [abs_mul, hσ1, one_mul, abs_sub_comm]
      rw [zpow_neg, zpow_natCast] at h'
      rw [one_div (10 ^ n : ℝ)]
      convert h' using 1
    have het2 : 1 / 10 ^ n / 2 ≤ σ * ((x.val : ℝ) - p.val) := by
      obtain ⟨h1, h2⟩ := abs_le.1 het
      rcases abs_cases (σ * ((x.val : ℝ) - p.val)) with h | h <;> linarith
    have hse : |(-σ * q.val : ℝ) - σ * (x.val - p.val) / d.val| ≤ 1 / 10 ^ 99 * |σ * (x.val - p.val) / d.val| := by
      rw [Dec.val_sub] at hqe; push_cast at hqe
      have e1 : σ * ((x.val : ℝ) - p.val) / d.val = -σ * ((p.val - x.val) / d.val) := by ring
      rw [e1, ← mul_sub, abs_mul, abs_mul, abs_neg, hσ1, one_mul, one_mul]
      exact hqe
    obtain ⟨s0, s1, s2, s3⟩ := newton_step hw0 hw1 hg0 hg4 (by linarith) het het2 (by rw [hphi]; exact hde) hse
    have hG : σ * ((g - q).val : ℝ) = σ * g.val + -σ * q.val := by rw [Dec.val_sub]; push_cast; ring
    refine ⟨by linarith [(abs_le.1 het).2], g - q, rfl, ?_⟩
    rw [hG]
    refine ⟨by linarith, ?_, s1, s2, s3⟩
    by_contra h
    have := normalCdf_strictMono (not_le.1 h)
    have h4 := normalCdf_four
    have e20 : (1 : ℝ) / 10 ^ 20 ≤ 1 / 10 ^ 10 := by norm_num
    have h3 : (0.25 : ℝ) * (1 / 10 ^ n) ≤ 1 / 10 ^ 10 := by linarith
    norm_num at h4 s1 h3 hX1 this; linarith

/-- The loop ends: one more pass is needed for every factor 25/21 of the first residual. -/
theorem qnorm_loop (hs : SqrtOk ext) (hf : 1 ≤ ext.fuel) (h20 : 20 ≤ n) (h80 : n ≤ 80) (hm : mean.val = 0) (hsd : sd.val = 1)
    {σ X : ℝ} (hσ : σ = 1 ∨ σ = -1) (x : Dec) (hX : ∀ u, X - normalCdf (σ * u) = σ * (x.val - normalCdf u)) (hX1 : X ≤ 0.99994) :
    ∀ (k fuel : ℕ) (g : Dec), k + 2 ≤ fuel → 0 ≤ σ * g.val → σ * g.val ≤ 4 → -(0.25 * (1 / 10 ^ n)) ≤ X - normalCdf (σ * g.val) →
      X - normalCdf (σ * g.val) ≤ (25 / 21) ^ k * (10 ^ 6 * (1 / 10 ^ n)) →
      ∃ q, qnormLoop ext x mean sd n fuel g = .ok q ∧ 0 ≤ σ * q.val ∧ σ * q.val ≤ 4 := by
  have hwp : (0 : ℝ) < 1 / 10 ^ n := by positivity
  intro k
  induction k with
  | zero =>
    intro fuel g hk h0 h4 hl hu
    obtain ⟨f, rfl⟩ : ∃ f, fuel = f + 1 + 1 := ⟨fuel - 2, by omega⟩
    rw [pow_zero, one_mul] at hu
    rcases qnorm_pass hs hf h20 h80 hm hsd hσ x hX hX1 (f + 1) g h0 h4 hl with h | ⟨_, g', he, g0, g4, gl, gs, _⟩
    · exact ⟨g, h, h0, h4⟩
    · rw [he]
      rcases qnorm_pass hs hf h20 h80 hm hsd hσ x hX hX1 f g' g0 g4 gl with h | ⟨h, _⟩
      · exact ⟨g', h, g0, g4⟩
      · exact absurd (gs hu) (not_le.2 h)
  | succ k ih =>
    intro fuel g hk h0 h4 hl hu
    obtain ⟨f, rfl⟩ : ∃ f, fuel = f + 1 := ⟨fuel - 1, by omega⟩
    rcases qnorm_pass hs hf h20 h80 hm hsd hσ x hX hX1 f g h0 h4 hl with h | ⟨_, g', he, g0, g4, gl, gs, gb⟩
    · exact ⟨g, h, h0, h4⟩
    · rw [he]
      refine ih f g' (by omega) g0 g4 gl ?_
      have hk1 : (1 : ℝ) ≤ (25 / 21) ^ k := one_le_pow₀ (by norm_num)
      rcases le_total (X - normalCdf (σ * g.val)) (10 ^ 6 * (1 / 10 ^ n)) with h | h
      · have := gs h
        nlinarith [mul_le_mul_of_nonneg_right hk1 (by positivity : (0 : ℝ) ≤ 10 ^ 6 * (1 / 10 ^ n))]
      · have := gb h
        rw [pow_succ] at hu
        nlinarith

/-- **C89** For the standard distribution, any probability between 0.00006 and 0.99994, and any
requested number of digits between 20 and 80, the Newton iteration of `qnorm` ends, after at most `14 n + 2` passes; the result has the requested probability up
to one unit of the last requested digit, and is within 5200 units of the last digit of the true quantile. -/
theorem C89_qnorm_returns (hs : SqrtOk ext) (h20 : 20 ≤ n) (h80 : n ≤ 80) (hf : 14 * n + 2 ≤ ext.fuel) (hm : mean.val = 0) (hsd : sd.val = 1)
    (x : Dec) (hx0 : 6 / 10 ^ 5 ≤ x.val) (hx1 : x.val ≤ 1 - 6 / 10 ^ 5) :
    ∃ q, Bd.qnorm ext x mean sd n = .ok (some q) ∧ |normalCdf q.val - x.val| ≤ 1 / 10 ^ n ∧
      ∀ t, normalCdf t = x.val → |(q.val : ℝ) - t| ≤ 5200 / 10 ^ n := by
  have hx0' : (6 / 10 ^ 5 : ℝ) ≤ x.val := by have := (Rat.cast_le (K := ℝ)).2 hx0; push_cast at this; exact this
  have hx1' : (x.val : ℝ) ≤ 1 - 6 / 10 ^ 5 := by have := (Rat.cast_le (K := ℝ)).2 hx1; push_cast at this; exact this
  have hwp : (0 : ℝ) < 1 / 10 ^ n := by positivity
  have hw1 : (1 : ℝ) / 10 ^ n ≤ 1 / 10 ^ 20 := by
    apply one_div_le_one_div_of_le (by positivity); exact pow_le_pow_right₀ (by norm_num) h20
  -- the test for a logarithm
  have hxv : (Dec.one - x).val = 1 - x.val := by rw [Dec.val_sub, Dec.val_one]
  have hne : (Dec.one - x).val ≠ 0 := by rw [hxv]; intro h; norm_num at hx1; linarith
  obtain ⟨r, hr, hre⟩ := div_real x (Dec.one - x) hne
  have hr1 : (1 : ℝ) / 10 ^ 5 ≤ r.val ∧ (r.val : ℝ) ≤ 10 ^ 5 := by
    rw [hxv] at hre; push_cast at hre
    have hy : (6 / 10 ^ 5 : ℝ) ≤ (x.val : ℝ) / (1 - x.val) := by
      rw [le_div_iff₀ (by norm_num at hx1' ⊢; linarith)]; norm_num at hx0' hx1' ⊢; linarith
    have hy2 : (x.val : ℝ) / (1 - x.val) ≤ 10 ^ 5 - 10 ^ 4 := by
      rw [div_le_iff₀ (by norm_num at hx1' ⊢; linarith)]; norm_num at hx0' hx1' ⊢; linarith
    generalize (x.val : ℝ) / (1 - x.val) = y at *
    rw [abs_of_nonneg (show 0 ≤ y from le_trans (by positivity) hy)] at hre
    obtain ⟨h1, h2⟩ := abs_le.1 hre
    have : (1 : ℝ) / 10 ^ 99 * y ≤ 1 / 10 * y := by
      apply mul_le_mul_of_nonneg_right _ (le_trans (by positivity) hy); norm_num
    norm_num at this hy hy2 h1 h2 ⊢
    constructor <;> linarith
  have hrpos : (0 : ℝ) < r.val := lt_of_lt_of_le (by positivity) hr1.1
  have hlog : |Real.log r.val| ≤ 15 := by
    have e5 : Real.log (10 ^ 5) ≤ 15 := by
      rw [Real.log_pow]
      have : Real.log 10 ≤ 3 := by
        rw [Real.log_le_iff_le_exp (by norm_num)]
        have := Real.add_one_le_exp (1 : ℝ)
        have h2 : Real.exp 3 = Real.exp 1 ^ 3 := by rw [← Real.exp_nat_mul]; norm_num
        rw [h2]
        have := Real.exp_one_gt_d9
        nlinarith [pow_le_pow_left₀ (by norm_num : (0 : ℝ) ≤ 2.7) (by linarith : (2.7 : ℝ) ≤ Real.exp 1) 3]
      push_cast; linarith
    rw [abs_le]
    constructor
    · have h := Real.log_le_log (by positivity) hr1.1
      rw [one_div, Real.log_inv] at h; linarith
    · exact (Real.log_le_log hrpos hr1.2).trans e5
  have hfr : (282 : ℝ) ≤ ext.fuel := by exact_mod_cast (by omega : 282 ≤ ext.fuel)
  obtain ⟨l, hl, _⟩ := C27_ln_accurate ext r n (by exact_mod_cast hrpos) (by omega) (by omega) (by linarith)
  -- the loop
  have hbase : (1 : ℝ) ≤ (25 / 21) ^ (14 * n) * (10 ^ 6 * (1 / 10 ^ n)) := by
    rw [pow_mul]
    have h14 : (10 : ℝ) ^ n ≤ ((25 / 21) ^ 14) ^ n := pow_le_pow_left₀ (by norm_num) (by norm_num) n
    have h10 : (0 : ℝ) < 10 ^ n := by positivity
    rw [show ((25 / 21 : ℝ) ^ 14) ^ n * (10 ^ 6 * (1 / 10 ^ n)) = ((25 / 21 : ℝ) ^ 14) ^ n * 10 ^ 6 / 10 ^ n by ring, le_div_iff₀ h10]
    nlinarith
  have hloop : ∃ q, qnormLoop ext x mean sd n ext.fuel Dec.zeroF64 = .ok q ∧ |(q.val : ℝ)| ≤ 4 := by
    rcases le_total (1 / 2 : ℝ) x.val with h | h
    · obtain ⟨q, h1, h2, h3⟩ := qnorm_loop hs (by omega) h20 h80 hm hsd (σ := 1) (X := x.val) (Or.inl rfl) x (by intro u; rw [one_mul, one_mul])
        (by norm_num at hx1' ⊢; linarith) (14 * n) ext.fuel Dec.zeroF64 hf (by rw [Dec.val_zeroF64]; norm_num) (by rw [Dec.val_zeroF64]; norm_num)
        (by rw [Dec.val_zeroF64, Rat.cast_zero, mul_zero, normalCdf_zero]; linarith)
        (by rw [Dec.val_zeroF64, Rat.cast_zero, mul_zero, normalCdf_zero]; refine le_trans ?_ hbase; norm_num at hx1' ⊢; linarith)
      rw [one_mul] at h2 h3
      exact ⟨q, h1, abs_le.2 ⟨by linarith, h3⟩⟩
    · obtain ⟨q, h1, h2, h3⟩ := qnorm_loop hs (by omega) h20 h80 hm hsd (σ := -1) (X := 1 - x.val) (Or.inr rfl) x
        (by intro u; rw [neg_one_mul, normalCdf_neg]; ring)
        (by norm_num at hx0' ⊢; linarith) (14 * n) ext.fuel Dec.zeroF64 hf (by rw [Dec.val_zeroF64]; norm_num) (by rw [Dec.val_zeroF64]; norm_num)
        (by rw [Dec.val_zeroF64, Rat.cast_zero, mul_zero, normalCdf_zero]; linarith)
        (by rw [Dec.val_zeroF64, Rat.cast_zero, mul_zero, normalCdf_zero]; refine le_trans ?_ hbase; norm_num at hx0' ⊢; linarith)
      exact ⟨q, h1, abs_le.2 ⟨by linarith, by linarith⟩⟩
  obtain ⟨g, hg, hg4⟩ := hloop
  obtain ⟨p, hp, hpe⟩ := qnormLoop_spec ext x mean sd n (by omega) _ _ _ hg
  obtain ⟨⟨p', hp', hpe'⟩, _⟩ := standard_near hs (by omega) h20 h80 hm hsd g hg4
  obtain rfl : p = p' := by rw [hp] at hp'; injection hp'
  have hpx : |(p.val : ℝ) - x.val| ≤ 1 / 2 * (1 / 10 ^ n) := by
    have h' : ((|p.val - x.val| : ℚ) : ℝ) ≤ ((1 / 2 * 10 ^ (-(n : ℤ)) : ℚ) : ℝ) := by exact_mod_cast hpe.le
    push_cast at h'
    rw [zpow_neg, zpow_natCast] at h'
    rw [one_div (10 ^ n : ℝ)]
    convert h' using 1
  have hgx : |normalCdf g.val - x.val| ≤ 0.64 * (1 / 10 ^ n) := by
    rw [abs_le] at hpe' hpx ⊢
    constructor <;> linarith [hpe'.1, hpe'.2, hpx.1, hpx.2]
  have hrd := round_real (n := n) g
  refine ⟨round g n, ?_, ?_, ?_⟩
  · unfold Bd.qnorm
    rw [hr, Res.ok_bind, hl, Res.ok_bind]
    simp only [hg, Res.ok_bind]
    rfl
  · have h1 := normalCdf_lipschitz ((round g n).val) g.val
    rw [abs_le] at h1 hgx ⊢
    constructor <;> linarith [h1.1, h1.2, hgx.1, hgx.2]
  · intro t ht
    rw [← ht] at hgx
    have ht4 : |t| ≤ 4 := by
      have h4 := normalCdf_four
      have hn4 := normalCdf_neg 4
      rw [abs_le]
      constructor
      · by_contra h
        have := normalCdf_strictMono (not_le.1 h)
        norm_num at h4 hx0' this; linarith
      · by_contra h
        have := normalCdf_strictMono (not_le.1 h)
        norm_num at h4 hx1' this; linarith
    have hgt : |(g.val : ℝ) - t| ≤ 5120 * (1 / 10 ^ n) := by
      have key : ∀ a b : ℝ, |a| ≤ 4 → |b| ≤ 4 → a ≤ b → 1 / 8000 * (b - a) ≤ normalCdf b - normalCdf a := by
        intro a b ha hb hab
        rcases hab.eq_or_lt with h0 | h0
        · rw [h0]; simp
        obtain ⟨c, hc, he⟩ := exists_hasDerivAt_eq_slope normalCdf normalPdf h0
          (fun u _ => (hasDerivAt_normalCdf u).continuousAt.continuousWithinAt) (fun u _ => hasDerivAt_normalCdf u)
        have hba : 0 < b - a := by linarith
        rw [eq_div_iff hba.ne'] at he
        rw [← he]
        have hc4 : |c| ≤ 4 := by
          rw [abs_le] at ha hb ⊢
          constructor <;> linarith [hc.1, hc.2, ha.1, hb.2]
        have : 1 / 8000 ≤ normalPdf c := by
          have := normalPdf_ge (abs_nonneg c) hc4
          unfold normalPdf at this ⊢
          rwa [sq_abs] at this
        gcongr
      rcases le_total (g.val : ℝ) t with h | h
      · have := key _ _ hg4 ht4 h
        rw [abs_sub_comm] at hgx
        rw [abs_sub_comm, abs_of_nonneg (by linarith)]
        have := le_abs_self (normalCdf t - normalCdf g.val)
        linarith
      · have := key _ _ ht4 hg4 h
        rw [abs_of_nonneg (by linarith)]
        have := le_abs_self (normalCdf g.val - normalCdf t)
        linarith
    have e : (5200 : ℝ) / 10 ^ n = 5200 * (1 / 10 ^ n) := by ring
    rw [e]
    rw [abs_le] at hrd hgt ⊢
    constructor <;> linarith [hrd.1, hrd.2, hgt.1, hgt.2]

/-- **C89** `p.qnorm(0, 1)` as an expression: evaluation gives the quantile. -/
theorem C89_qnorm_evaluates (hs : SqrtOk ext) (h20 : 20 ≤ n) (h80 : n ≤ 80) (hf : 14 * n + 2 ≤ ext.fuel) {e₁ e₂ e₃ : Expr} {x : ℚ} (h₁ : EvalsTo ext n e₁ x 0)
    (h₂ : EvalsTo ext n e₂ ((0 : ℚ) : ℝ) 0) (h₃ : EvalsTo ext n e₃ ((1 : ℚ) : ℝ) 0) (hx0 : 6 / 10 ^ 5 ≤ x) (hx1 : x ≤ 1 - 6 / 10 ^ 5) (t : ℝ) (ht : normalCdf t = x) :
    EvalsTo ext n (.methodCall e₁ "qnorm" [e₂, e₃]) t (5200 / 10 ^ n) := by
  have exact : ∀ (d : Dec) (q : ℚ), |(d.val : ℝ) - q| ≤ 0 → d.val = q := fun d q hd => by
    have := sub_eq_zero.1 (abs_eq_zero.1 (le_antisymm hd (abs_nonneg _)))
    exact_mod_cast this
  obtain ⟨t₁, d₁, a1, a2, a3⟩ := h₁
  obtain ⟨t₂, d₂, b1, b2, b3⟩ := h₂
  obtain ⟨t₃, d₃, c1, c2, c3⟩ := h₃
  have := exact _ _ a3; subst this
  obtain ⟨q, q1, _, q3⟩ := C89_qnorm_returns hs h20 h80 hf (exact _ _ b3) (exact _ _ c3) d₁ hx0 hx1
  refine ⟨exprOfDec q, _, ?_, exprToDec_exprOfDec _, by rw [val_canon]; exact q3 t ht⟩
  have hm : evalMethod ext n "qnorm" d₁ [d₂, d₃] = .ok q := by
    simp only [evalMethod, orEvalErr, q1, Res.ok_bind, Res.okOr]
  rw [eval, a1]
  simp only [evalArgs, Res.ok_bind, a2, b1, c1, Res.pure_eq, exprsToDecs, b2, c2, hm]

end

/-- An environment in which the iteration may take two thousand passes. -/
def longExt : BdExt := { goodExt with fuel := 2000 }

theorem longExt_ok : SqrtOk longExt := ⟨goodExt_ok.1, goodExt_ok.2⟩

example : SqrtOk longExt ∧ 14 * 40 + 2 ≤ longExt.fuel ∧ Dec.zero.val = 0 ∧ Dec.one.val = 1 ∧
    (1 : ℚ) / 10 ^ 4 ≤ (⟨3, 1⟩ : Dec).val ∧ (⟨3, 1⟩ : Dec).val ≤ 1 - 6 / 10 ^ 5 :=
  ⟨longExt_ok, by decide, by simp, by simp, by norm_num [Dec.val], by norm_num [Dec.val]⟩

/-- **C89** The first guess is 0 whatever the mean: ten standard deviations away the computed density is 0 and the quotient panics. -/
theorem C89_mean_panics : Bd.qnorm longExt ⟨5, 1⟩ ⟨10, 0⟩ ⟨1, 0⟩ 20 = .panic := by decide +kernel

end Verif

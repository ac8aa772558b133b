import Verif.Lemmas.Normal
import Verif.Props.Inverse
import Verif.Props.Rounding

/-!
# C32, C33: error function, normal density, distribution and quantiles

`normalCdf` and `normalPdf` (in `Verif.Lemmas.Normal`) are the textbook integral and density over the reals.
-/

namespace Verif
open Bd Dec

/-- **C32** `erfc(x) = 1 - erf(x)`: both return together and the values add up to one. -/
theorem C32_erfc (ext : BdExt) (x : Dec) (n : Int) (d : Dec) (h : Bd.erfc ext x n = .ok d) :
    ∃ e, Bd.erf ext x n = .ok e ∧ d.val + e.val = 1 := by
  unfold Bd.erfc at h
  rw [Res.bind_eq_ok] at h
  obtain ⟨e, he, h⟩ := h
  cases h
  exact ⟨e, he, by rw [val_sub, val_one]; ring⟩

/-- **C32** `erfc` returns whenever `erf` does. -/
theorem C32_erfc_returns (ext : BdExt) (x : Dec) (n : Int) (e : Dec) (h : Bd.erf ext x n = .ok e) :
    ∃ d, Bd.erfc ext x n = .ok d := by
  unfold Bd.erfc
  rw [h]
  exact ⟨_, rfl⟩

theorem neg_sub_zero (x m : Dec) (hm : m.val = 0) : -x - m = -(x - m) := by
  have h0 : m.int = 0 := by
    have := Dec.isZero_iff m
    simp only [Dec.isZero, beq_iff_eq] at this
    exact this.2 hm
  have e : -m = m := by
    cases m; simp only [neg_def] at *; subst h0; rfl
  rw [← neg_sub_neg, e]

/-- **C32** The distribution function is exactly symmetric about a mean of zero, digit for digit. -/
theorem C32_pnorm_symmetric (ext : BdExt) (x mean sd : Dec) (n : Int) (hm : mean.val = 0) (p : Dec)
    (h : Bd.pnorm ext x mean sd n = .ok p) : ∃ q, Bd.pnorm ext (-x) mean sd n = .ok q ∧ p.val + q.val = 1 := by
  unfold Bd.pnorm at h ⊢
  rw [neg_sub_zero x mean hm, div_neg_left]
  simp only [Res.bind_eq_ok] at h
  obtain ⟨y, hy, r, hr, z, hz, e, he, h⟩ := h
  cases h
  refine ⟨(-e + Dec.one) * Dec.half, ?_, ?_⟩
  · simp only [hy, hr, hz, he, Res.ok_bind, div_neg_left, C31_erf_odd, Res.pure_eq]
  · simp only [val_mul, val_add, val_one, val_neg]
    have : Dec.half.val = 1 / 2 := by norm_num [Dec.half, Dec.val]
    rw [this]; ring

example : Bd.pnorm goodExt ⟨1, 0⟩ Dec.zero Dec.one 3 ≠ .panic ∧
    (match Bd.pnorm goodExt ⟨1, 0⟩ Dec.zero Dec.one 3 with | .ok d => round d 3 | _ => Dec.zero) = ⟨841, 3⟩ ∧
    (match Bd.pnorm goodExt ⟨-1, 0⟩ Dec.zero Dec.one 3 with | .ok d => round d 3 | _ => Dec.zero) = ⟨159, 3⟩ := by
  decide +kernel

/-- **C32** Explicit error of `erf` for every argument with `x² ≤ B` and every digit count the loop guard allows. -/
theorem C32_erf_error (ext : BdExt) (hs : SqrtOk ext) (hf : 1 ≤ ext.fuel) (x : Dec) (n B : ℕ) (h1 : 1 ≤ n) (hB : 1 ≤ B)
    (hx : x.val ^ 2 ≤ B) (hn : 8 * n + 9 ≤ 30001) (hn2 : 2 * n + 11 * B + 3 ≤ 30001) :
    ∃ d, Bd.erf ext x n = .ok d ∧ |(d.val : ℝ) - 2 / √Real.pi * ∫ t in (0 : ℝ)..x.val, Real.exp (-t ^ 2)| ≤
      |(x.val : ℝ)| * (1 / 5 * piE n + 1 / 10 ^ 97 + 6 / 5 * expBound B n (2 * n + 11 * B + 3)) :=
  erf_error ext hs hf x n B h1 hB hx hn hn2

theorem small_terms (n B : ℕ) (hB : B + 2 ≤ n) (hn : n + B ≤ 94) (hB1 : 1 ≤ B) :
    piE n = 1 / 2 * (1 / 10 ^ n) ∧ (1 : ℝ) / 10 ^ 96 ≤ 1 / 100 * (1 / 10 ^ n) ∧
      (B + 1 : ℝ) / 10 ^ 96 ≤ 1 / 100 * (1 / 10 ^ n) ∧ expBound B n (2 * n + 11 * B + 3) < 1 / 10 ^ n := by
  refine ⟨?_, ?_, ?_, expBound_lt B n _ hB (by omega) (by omega) (by omega)⟩
  · unfold piE
    rw [if_pos (by omega)]; ring
  · have := ten_pow_le n 94 (1 / 100) (by norm_num) (by omega)
    refine le_trans ?_ this
    norm_num
  · have h1 : (B + 1 : ℝ) ≤ 10 ^ B := by
      have := Nat.lt_pow_self (n := B) (a := 10) (by norm_num)
      exact_mod_cast this
    have h2 := ten_pow_le n (94 - B) (1 / 100) (by norm_num) (by omega)
    refine le_trans ?_ h2
    rw [div_le_div_iff₀ (by positivity) (by positivity)]
    have e : (10 : ℝ) ^ 96 = 100 * (10 ^ B * 10 ^ (94 - B)) := by
      rw [← pow_add, show B + (94 - B) = 94 by omega]; norm_num
    rw [e]
    have : (0 : ℝ) < 10 ^ (94 - B) := by positivity
    nlinarith

/-- **C32** `erf` is within `3/2·|x|·10^-n` of `2/√π · ∫₀ˣ e^(-t²) dt`. -/
theorem C32_erf_accurate (ext : BdExt) (hs : SqrtOk ext) (hf : 1 ≤ ext.fuel) (x : Dec) (n B : ℕ) (hB : 1 ≤ B)
    (hx : x.val ^ 2 ≤ B) (hn : B + 2 ≤ n) (hn2 : n + B ≤ 94) :
    ∃ d, Bd.erf ext x n = .ok d ∧ |(d.val : ℝ) - 2 / √Real.pi * ∫ t in (0 : ℝ)..x.val, Real.exp (-t ^ 2)| ≤
      3 / 2 * |(x.val : ℝ)| * (1 / 10 ^ n) := by
  obtain ⟨d, hd, he⟩ := C32_erf_error ext hs hf x n B (by omega) hB hx (by omega) (by omega)
  refine ⟨d, hd, he.trans ?_⟩
  obtain ⟨s1, s2, _, s4⟩ := small_terms n B hn hn2 hB
  rw [s1]
  have s2' : (1 : ℝ) / 10 ^ 97 ≤ 1 / 10 ^ 96 := by norm_num
  generalize (1 : ℝ) / 10 ^ n = w at *
  have hw : 0 < w := by
    have : (0 : ℝ) < 1 / 10 ^ 96 := by positivity
    linarith
  have := abs_nonneg (x.val : ℝ)
  rw [show 3 / 2 * |(x.val : ℝ)| * w = |(x.val : ℝ)| * (3 / 2 * w) by ring]
  apply mul_le_mul_of_nonneg_left _ this
  linarith

/-- **C32** `erfc` is as close to `1 - 2/√π · ∫₀ˣ e^(-t²) dt`. -/
theorem C32_erfc_accurate (ext : BdExt) (hs : SqrtOk ext) (hf : 1 ≤ ext.fuel) (x : Dec) (n B : ℕ) (hB : 1 ≤ B)
    (hx : x.val ^ 2 ≤ B) (hn : B + 2 ≤ n) (hn2 : n + B ≤ 94) :
    ∃ d, Bd.erfc ext x n = .ok d ∧ |(d.val : ℝ) - (1 - 2 / √Real.pi * ∫ t in (0 : ℝ)..x.val, Real.exp (-t ^ 2))| ≤
      3 / 2 * |(x.val : ℝ)| * (1 / 10 ^ n) := by
  obtain ⟨e, he, hee⟩ := C32_erf_accurate ext hs hf x n B hB hx hn hn2
  obtain ⟨d, hd⟩ := C32_erfc_returns ext x n e he
  obtain ⟨e', he', hs⟩ := C32_erfc ext x n d hd
  rw [he] at he'; cases he'
  refine ⟨d, hd, ?_⟩
  have : (d.val : ℝ) = 1 - e.val := by
    have : d.val = 1 - e.val := by linarith
    rw [this]; push_cast; rfl
  rw [this, ← abs_neg]
  refine le_trans (le_of_eq ?_) hee
  congr 1; ring

example : SqrtOk goodExt ∧ 1 ≤ goodExt.fuel ∧ (⟨15, 1⟩ : Dec).val ^ 2 ≤ (3 : ℕ) ∧
    (match Bd.erf goodExt ⟨15, 1⟩ 5 with | .ok d => round d 4 | _ => Dec.zero) = ⟨9661, 4⟩ :=
  ⟨goodExt_ok, by decide, by norm_num [Dec.val], by decide +kernel⟩

/-- **C32** `pnorm` is within `|u|·10^-n` of the standard normal distribution function at the exact standardised argument
`u = (x - mean)/sd`, for every `u² ≤ B`. -/
theorem C32_pnorm_accurate (ext : BdExt) (hs : SqrtOk ext) (hf : 1 ≤ ext.fuel) (x mean sd : Dec) (n B : ℕ) (hB : 1 ≤ B)
    (hsd : sd.val ≠ 0) (hx : ((x.val - mean.val) / sd.val) ^ 2 ≤ B) (hn : B + 2 ≤ n) (hn2 : n + B ≤ 94) :
    ∃ d, Bd.pnorm ext x mean sd n = .ok d ∧
      |(d.val : ℝ) - normalCdf ((x.val - mean.val) / sd.val)| ≤ |((x.val : ℝ) - mean.val) / sd.val| * (1 / 10 ^ n) := by
  obtain ⟨d, hd, he⟩ := pnorm_error ext hs hf x mean sd n B (by omega) hB hsd _ rfl (by exact_mod_cast hx) (by omega) (by omega)
  refine ⟨d, hd, he.trans ?_⟩
  apply mul_le_mul_of_nonneg_left _ (abs_nonneg _)
  obtain ⟨s1, s2, _, s4⟩ := small_terms n B hn hn2 hB
  rw [s1]
  generalize (1 : ℝ) / 10 ^ n = w at *
  have hw : 0 < w := by
    have : (0 : ℝ) < 1 / 10 ^ 96 := by positivity
    linarith
  linarith

/-- **C32** `dnorm` is within `10^-n/|sd|` of the normal density with the given mean and standard deviation. -/
theorem C32_dnorm_accurate (ext : BdExt) (hs : SqrtOk ext) (hf : 1 ≤ ext.fuel) (x mean sd : Dec) (n B : ℕ) (hB : 1 ≤ B)
    (hsd : sd.val ≠ 0) (hx : ((x.val - mean.val) / sd.val) ^ 2 ≤ B) (hn : B + 2 ≤ n) (hn2 : n + B ≤ 94) :
    ∃ d, Bd.dnorm ext x mean sd n = .ok d ∧
      |(d.val : ℝ) - normalPdf ((x.val - mean.val) / sd.val) / sd.val| ≤ 1 / |(sd.val : ℝ)| * (1 / 10 ^ n) := by
  obtain ⟨d, hd, he⟩ := dnorm_error ext hs hf x mean sd n B (by omega) hB hsd _ rfl (by exact_mod_cast hx) (by omega) (by omega)
  refine ⟨d, hd, he.trans ?_⟩
  apply mul_le_mul_of_nonneg_left _ (by positivity)
  obtain ⟨s1, s2, s3, s4⟩ := small_terms n B hn hn2 hB
  rw [s1]
  generalize (1 : ℝ) / 10 ^ n = w at *
  have hw : 0 < w := by
    have : (0 : ℝ) < 1 / 10 ^ 96 := by positivity
    linarith
  linarith

example : (match Bd.dnorm goodExt ⟨3, 0⟩ ⟨1, 0⟩ ⟨2, 0⟩ 5 with | .ok d => round d 4 | _ => Dec.zero) = ⟨1210, 4⟩ ∧
    (((⟨3, 0⟩ : Dec).val - (⟨1, 0⟩ : Dec).val) / (⟨2, 0⟩ : Dec).val) ^ 2 ≤ (1 : ℕ) :=
  ⟨by decide +kernel, by norm_num [Dec.val]⟩

/-- **C33** A returned quantile is a true quantile: the exact normal distribution function at `q` differs from the
requested probability by at most `1/2 + |u| + 1/|sd|` units of the last digit, where `u` is the standardised `q`,
provided `q` with a margin of one unit lies in the range where `pnorm` is accurate. -/
theorem C33_qnorm_true_quantile (ext : BdExt) (hs : SqrtOk ext) (hf : 1 ≤ ext.fuel) (x mean sd : Dec) (n B : ℕ) (hB : 1 ≤ B)
    (hsd : sd.val ≠ 0) (hn : B + 2 ≤ n) (hn2 : n + B ≤ 94) (q : Dec) (h : Bd.qnorm ext x mean sd n = .ok (some q))
    (hq : ((|q.val - mean.val| + 1) / sd.val) ^ 2 ≤ B) :
    |normalCdf ((q.val - mean.val) / sd.val) - x.val| ≤
      (1 / 2 + |((q.val : ℝ) - mean.val) / sd.val| + 1 / |(sd.val : ℝ)|) * (1 / 10 ^ n) := by
  obtain ⟨g, p, hqg, hp, hpx⟩ := C33_qnorm_correct ext x mean sd n (by omega) q h
  have hgq : |q.val - g.val| ≤ 1 / 2 * (10 : ℚ) ^ (-(n : Int)) := by
    rw [hqg]
    exact C01_round_error g n (by omega)
  have hw : (10 : ℚ) ^ (-(n : Int)) = 1 / 10 ^ n := by rw [zpow_neg, zpow_natCast, one_div]
  rw [hw] at hgq hpx
  have hw1 : (1 : ℚ) / 10 ^ n ≤ 1 := by
    rw [div_le_one (by positivity)]; exact one_le_pow₀ (by norm_num)
  have hgB : ((g.val - mean.val) / sd.val) ^ 2 ≤ B := by
    refine le_trans ?_ hq
    rw [div_pow, div_pow]
    apply div_le_div_of_nonneg_right _ (sq_nonneg _)
    apply sq_le_sq'
    · have := neg_abs_le (q.val - mean.val)
      have := (abs_le.1 hgq).2
      linarith
    · have := le_abs_self (q.val - mean.val)
      have := (abs_le.1 hgq).1
      linarith
  obtain ⟨p', hp', he⟩ := C32_pnorm_accurate ext hs hf g mean sd n B hB hsd hgB hn hn2
  rw [hp] at hp'; cases hp'
  have hgq' : |(q.val : ℝ) - g.val| ≤ 1 / 2 * (1 / 10 ^ n) := by
    have : ((|q.val - g.val| : ℚ) : ℝ) ≤ ((1 / 2 * (1 / 10 ^ n) : ℚ) : ℝ) := by exact_mod_cast hgq
    push_cast at this; exact this
  have hpx' : |(p.val : ℝ) - x.val| ≤ 1 / 2 * (1 / 10 ^ n) := by
    have : ((|p.val - x.val| : ℚ) : ℝ) ≤ ((1 / 2 * (1 / 10 ^ n) : ℚ) : ℝ) := by exact_mod_cast hpx.le
    push_cast at this; exact this
  have hw1' : (1 : ℝ) / 10 ^ n ≤ 1 := by
    rw [div_le_one (by positivity)]; exact one_le_pow₀ (by norm_num)
  have hw0 : (0 : ℝ) < 1 / 10 ^ n := by positivity
  have hs0 : (0 : ℝ) < |(sd.val : ℝ)| := abs_pos.2 (by exact_mod_cast hsd)
  have hL := normalCdf_lipschitz ((q.val - mean.val) / sd.val) ((g.val - mean.val) / sd.val)
  have e1 : ((q.val : ℝ) - mean.val) / sd.val - (g.val - mean.val) / sd.val = (q.val - g.val) / sd.val := by ring
  rw [e1, abs_div] at hL
  have hD : |(q.val : ℝ) - g.val| / |(sd.val : ℝ)| ≤ 1 / 2 * (1 / |(sd.val : ℝ)|) * (1 / 10 ^ n) := by
    rw [div_le_iff₀ hs0]
    refine hgq'.trans (le_of_eq ?_)
    field_simp
  have hU : |((g.val : ℝ) - mean.val) / sd.val| ≤ |((q.val : ℝ) - mean.val) / sd.val| + 1 / 2 * (1 / |(sd.val : ℝ)|) * (1 / 10 ^ n) := by
    have e2 : ((g.val : ℝ) - mean.val) / sd.val = (q.val - mean.val) / sd.val - (q.val - g.val) / sd.val := by ring
    rw [e2]
    refine (abs_sub _ _).trans ?_
    rw [abs_div ((q.val : ℝ) - g.val)]
    linarith
  have t1 := abs_sub_le (normalCdf ((q.val - mean.val) / sd.val)) (normalCdf ((g.val - mean.val) / sd.val)) p.val
  have t2 := abs_sub_le (normalCdf ((q.val - mean.val) / sd.val)) p.val x.val
  rw [abs_sub_comm] at he
  have his : 0 < 1 / |(sd.val : ℝ)| := by positivity
  generalize |((g.val : ℝ) - mean.val) / sd.val| = G at *
  generalize |((q.val : ℝ) - mean.val) / sd.val| = U at *
  generalize (1 : ℝ) / 10 ^ n = w at *
  generalize 1 / |(sd.val : ℝ)| = t at *
  have h5 : G * w ≤ (U + 1 / 2 * t * w) * w := mul_le_mul_of_nonneg_right hU hw0.le
  have h6 : 1 / 2 * t * w * w ≤ 1 / 2 * t * w := by
    have : 0 ≤ 1 / 2 * t * w := by positivity
    nlinarith
  nlinarith

-- a quantile that is returned: probability 0.75, mean 0, standard deviation 1
example : (match Bd.qnorm goodExt ⟨75, 2⟩ Dec.zero Dec.one 4 with | .ok (some d) => d | _ => Dec.zero) = ⟨6745, 4⟩ := by
  decide +kernel

end Verif

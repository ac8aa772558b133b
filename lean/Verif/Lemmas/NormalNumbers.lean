import Mathlib.Analysis.SpecificLimits.Normed
import Verif.Lemmas.Quantile

/-! # Some values of the normal distribution -/

namespace Verif
namespace Bd

/-- Terms of the series of the distribution function. -/
noncomputable def cdfTerm (t : ℝ) (k : ℕ) : ℝ := t ^ k / ((2 * k + 1) * (Nat.factorial k : ℝ))

theorem cdfTerm_antitone {t : ℝ} (h0 : 0 ≤ t) (h3 : t ≤ 3) : Antitone (cdfTerm t) := by
  refine antitone_nat_of_succ_le fun k => ?_
  have hf : (0 : ℝ) < Nat.factorial k := by positivity
  have e : cdfTerm t (k + 1) = cdfTerm t k * (t * (2 * k + 1) / ((k + 1) * (2 * k + 3))) := by
    unfold cdfTerm
    rw [Nat.factorial_succ]; push_cast; field_simp; ring
  rw [e]
  refine mul_le_of_le_one_right (by unfold cdfTerm; positivity) ?_
  rw [div_le_one (by positivity)]
  have hk : (0 : ℝ) ≤ k := by positivity
  rcases Nat.eq_zero_or_pos k with rfl | hk1
  · norm_num; linarith
  · have : (1 : ℝ) ≤ k := by exact_mod_cast hk1
    nlinarith

/-- The series alternates, so its partial sums enclose the value. -/
theorem cdf_series {u : ℝ} (h0 : 0 ≤ u) (h3 : u ^ 2 / 2 ≤ 3) : ∃ L, normalCdf u = 1 / 2 + u * L / √(2 * Real.pi) ∧
    ∀ k, ∑ i ∈ Finset.range (2 * k), (-1) ^ i * cdfTerm (u ^ 2 / 2) i ≤ L ∧ L ≤ ∑ i ∈ Finset.range (2 * k + 1), (-1) ^ i * cdfTerm (u ^ 2 / 2) i := by
  have h2 : (0 : ℝ) < √2 := by positivity
  have hp : (0 : ℝ) < √Real.pi := Real.sqrt_pos.2 Real.pi_pos
  have hsq : (u / √2) ^ 2 = u ^ 2 / 2 := by rw [div_pow, Real.sq_sqrt (by norm_num)]
  obtain ⟨L, hL, hv⟩ := hasSum_erf (u / √2)
  have e : (fun j => (erfC j : ℝ) * ((u / √2) ^ 2) ^ j) = fun j => (-1) ^ j * cdfTerm (u ^ 2 / 2) j := by
    funext j; rw [erfC_real, hsq, cdfTerm]; ring
  rw [e] at hL
  refine ⟨L, ?_, fun k => ⟨?_, ?_⟩⟩
  · rw [normalCdf_eq, ← hv, sqrt_two_pi]; field_simp
  · exact (cdfTerm_antitone (by positivity) h3).alternating_series_le_tendsto hL.tendsto_sum_nat k
  · exact (cdfTerm_antitone (by positivity) h3).tendsto_le_alternating_series hL.tendsto_sum_nat k

theorem root_two_pi : (2.506628 : ℝ) ≤ √(2 * Real.pi) ∧ √(2 * Real.pi) ≤ 2.5066283 := by
  constructor
  · exact Real.le_sqrt_of_sq_le (by norm_num; linarith [Real.pi_gt_d20])
  · exact Real.sqrt_le_iff.2 ⟨by norm_num, by norm_num; linarith [Real.pi_lt_d20]⟩

theorem le_cdf {u r : ℝ} (k : ℕ) (h0 : 0 ≤ u) (h3 : u ^ 2 / 2 ≤ 3) (hr : 1 / 2 ≤ r)
    (h : (r - 1 / 2) * 2.5066283 ≤ u * ∑ i ∈ Finset.range (2 * k), (-1) ^ i * cdfTerm (u ^ 2 / 2) i) : r ≤ normalCdf u := by
  obtain ⟨L, hL, hk⟩ := cdf_series h0 h3
  have hs := root_two_pi
  have hs0 : 0 < √(2 * Real.pi) := by linarith
  have : r - 1 / 2 ≤ u * L / √(2 * Real.pi) := by
    rw [le_div_iff₀ hs0]
    calc (r - 1 / 2) * √(2 * Real.pi) ≤ (r - 1 / 2) * 2.5066283 := mul_le_mul_of_nonneg_left hs.2 (by linarith)
      _ ≤ _ := h
      _ ≤ u * L := mul_le_mul_of_nonneg_left (hk k).1 h0
  rw [hL]; linarith

theorem cdf_le {u r : ℝ} (k : ℕ) (h0 : 0 ≤ u) (h3 : u ^ 2 / 2 ≤ 3) (hr : 1 / 2 ≤ r)
    (h : u * ∑ i ∈ Finset.range (2 * k + 1), (-1) ^ i * cdfTerm (u ^ 2 / 2) i ≤ (r - 1 / 2) * 2.506628) : normalCdf u ≤ r := by
  obtain ⟨L, hL, hk⟩ := cdf_series h0 h3
  have hs := root_two_pi
  have hs0 : 0 < √(2 * Real.pi) := by linarith
  have : u * L / √(2 * Real.pi) ≤ r - 1 / 2 := by
    rw [div_le_iff₀ hs0]
    calc u * L ≤ u * _ := mul_le_mul_of_nonneg_left (hk k).2 h0
      _ ≤ _ := h
      _ ≤ (r - 1 / 2) * √(2 * Real.pi) := mul_le_mul_of_nonneg_left hs.1 (by linarith)
  rw [hL]; linarith

theorem cdf_18749 : 0.969596 ≤ normalCdf 1.8749 := by
  refine le_cdf 8 (by norm_num) (by norm_num) (by norm_num) ?_
  norm_num [Finset.sum_range_succ, cdfTerm, Nat.factorial]
theorem cdf_18751 : normalCdf 1.8751 ≤ 0.969611 := by
  refine cdf_le 8 (by norm_num) (by norm_num) (by norm_num) ?_
  norm_num [Finset.sum_range_succ, cdfTerm, Nat.factorial]
theorem cdf_19999 : 0.977244 ≤ normalCdf 1.9999 := by
  refine le_cdf 8 (by norm_num) (by norm_num) (by norm_num) ?_
  norm_num [Finset.sum_range_succ, cdfTerm, Nat.factorial]
theorem cdf_20001 : normalCdf 2.0001 ≤ 0.977256 := by
  refine cdf_le 8 (by norm_num) (by norm_num) (by norm_num) ?_
  norm_num [Finset.sum_range_succ, cdfTerm, Nat.factorial]
theorem cdf_06251 : normalCdf 0.6251 ≤ 0.734048 := by
  refine cdf_le 4 (by norm_num) (by norm_num) (by norm_num) ?_
  norm_num [Finset.sum_range_succ, cdfTerm, Nat.factorial]
theorem cdf_04999 : 0.691427 ≤ normalCdf 0.4999 := by
  refine le_cdf 4 (by norm_num) (by norm_num) (by norm_num) ?_
  norm_num [Finset.sum_range_succ, cdfTerm, Nat.factorial]

theorem pdf_19375 : 0.0606 ≤ normalPdf (31 / 16) ∧ normalPdf (31 / 16) ≤ 0.0615 := by
  have hs := root_two_pi
  have h := Real.exp_bound (x := -961 / 1024) (by norm_num [abs_le]) (n := 8) (by norm_num)
  norm_num [Finset.sum_range_succ, Nat.factorial, abs_le] at h
  have e : Real.exp (-(31 / 16) ^ 2 / 2) = Real.exp (-961 / 1024) ^ 2 := by
    rw [← Real.exp_nat_mul]; congr 1; norm_num
  have k1 : 0.391 ≤ Real.exp (-961 / 1024) := by norm_num; linarith [h.1]
  have k2 : Real.exp (-961 / 1024) ≤ 0.3915 := by norm_num; linarith [h.2]
  have k0 := Real.exp_pos (-961 / 1024)
  unfold normalPdf
  rw [e, one_div_mul_eq_div]
  constructor
  · rw [le_div_iff₀ (by linarith)]; nlinarith
  · rw [div_le_iff₀ (by linarith)]; nlinarith

theorem pdf_05625 : 0.3403 ≤ normalPdf (-9 / 16) := by
  have hs := root_two_pi
  have h := Real.exp_bound (x := -81 / 512) (by norm_num [abs_le]) (n := 5) (by norm_num)
  norm_num [Finset.sum_range_succ, Nat.factorial, abs_le] at h
  have e : Real.exp (-(-9 / 16) ^ 2 / 2) = Real.exp (-81 / 512) := by congr 1; norm_num
  have k1 : 0.8535 ≤ Real.exp (-81 / 512) := by norm_num; linarith [h.1]
  unfold normalPdf
  rw [e, one_div_mul_eq_div, le_div_iff₀ (by linarith)]; nlinarith

end Bd
end Verif

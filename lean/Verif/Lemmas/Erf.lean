import Mathlib.MeasureTheory.Integral.IntervalIntegral.FundThmCalculus
import Mathlib.Analysis.Calculus.SmoothSeries
import Mathlib.Analysis.SpecialFunctions.ExpDeriv
import Verif.Lemmas.Asin
import Verif.Lemmas.PowBounds
import Verif.Props.Accuracy

/-! # The error function -/

namespace Verif
namespace Bd
open Dec

/-- Coefficients of the error function series in `x²`. -/
def erfC (i : ℕ) : ℚ := if i % 2 = 0 then 1 / ((2 * i + 1) * (Nat.factorial i : ℚ)) else -(1 / ((2 * i + 1) * (Nat.factorial i : ℚ)))

theorem abs_erfC (i : ℕ) : |erfC i| = 1 / ((2 * i + 1) * (Nat.factorial i : ℚ)) := by
  unfold erfC
  split_ifs
  · rw [abs_of_nonneg (by positivity)]
  · rw [abs_neg, abs_of_nonneg (by positivity)]

theorem expDom_erf : ExpDom erfC where
  le i := by
    rw [abs_erfC]
    apply one_div_le_one_div_of_le (by positivity)
    have : (0 : ℚ) < (Nat.factorial i : ℚ) := by positivity
    have h2 : (0 : ℚ) ≤ i := by positivity
    nlinarith
  decay N k _ := by
    rw [abs_erfC, abs_erfC, div_mul_div_comm, one_mul]
    apply one_div_le_one_div_of_le (by positivity)
    have h3 : Nat.factorial N * Nat.factorial k ≤ Nat.factorial (N + k) :=
      Nat.le_of_dvd (Nat.factorial_pos _) (Nat.factorial_mul_factorial_dvd_factorial_add N k)
    have h4 : ((Nat.factorial N : ℚ) * (Nat.factorial k : ℚ)) ≤ (Nat.factorial (N + k) : ℚ) := by exact_mod_cast h3
    rw [mul_assoc]
    apply mul_le_mul _ h4 (by positivity) (by positivity)
    push_cast
    have : (0 : ℚ) ≤ k := by positivity
    linarith

theorem follows_erf : Follows erfTerm erfC divEps (fun _ _ => True) := by
  intro i s t P F _ hF
  have hv : (ofInt (2 * (i : Int) + 1) * F).val = (2 * i + 1) * (Nat.factorial i : ℚ) := by
    rw [val_mul, val_ofInt, hF]; push_cast; rfl
  obtain ⟨q, hq, he⟩ := div_follow P (ofInt (2 * (i : Int) + 1) * F) (1 / ((2 * i + 1) * (Nat.factorial i : ℚ))) (by
    rw [hv]; field_simp)
  have hpos : (0 : ℚ) < 1 / ((2 * i + 1) * (Nat.factorial i : ℚ)) := by positivity
  unfold erfC erfTerm
  by_cases h : i % 2 = 0
  · simp only [h, if_true]
    refine ⟨fun h0 => absurd h0 hpos.ne', fun _ => ⟨s, t + q, by rw [hq]; rfl, trivial, ?_⟩⟩
    rw [val_add, add_sub_cancel_left]; exact he
  · simp only [h, if_false]
    refine ⟨fun h0 => absurd (neg_eq_zero.1 h0) hpos.ne', fun _ => ⟨s, t - q, by rw [hq]; rfl, trivial, ?_⟩⟩
    rw [val_sub]
    rw [show t.val - q.val - t.val - -(1 / ((2 * (i : ℚ) + 1) * (Nat.factorial i : ℚ))) * P.val =
      -(q.val - 1 / ((2 * (i : ℚ) + 1) * (Nat.factorial i : ℚ)) * P.val) by ring, abs_neg, _root_.neg_mul, abs_neg]
    exact he

/-- The Gaussian integral. -/
noncomputable def gaussInt (x : ℝ) : ℝ := ∫ t in (0 : ℝ)..x, Real.exp (-t ^ 2)

theorem erfC_real (i : ℕ) : (erfC i : ℝ) = (-1) ^ i / ((2 * i + 1) * (Nat.factorial i : ℝ)) := by
  unfold erfC
  rcases Nat.even_or_odd i with h | h
  · rw [if_pos (Nat.even_iff.1 h), h.neg_one_pow]; push_cast; rfl
  · rw [if_neg (by rw [Nat.odd_iff] at h; omega), h.neg_one_pow]; push_cast; ring

theorem hasSum_gauss (x : ℝ) : HasSum (fun j : ℕ => (-1) ^ j * x ^ (2 * j) / (Nat.factorial j : ℝ)) (Real.exp (-x ^ 2)) := by
  have h := NormedSpace.expSeries_div_hasSum_exp (-x ^ 2 : ℝ)
  rw [← Real.exp_eq_exp_ℝ] at h
  have e : (fun j : ℕ => (-1) ^ j * x ^ (2 * j) / (Nat.factorial j : ℝ)) = fun j : ℕ => (-x ^ 2) ^ j / (Nat.factorial j : ℝ) := by
    funext j
    rw [neg_pow (x ^ 2), pow_mul]
  rw [e]
  exact h

theorem hasSum_erf_int (x : ℝ) :
    HasSum (fun k : ℕ => (erfC k : ℝ) * x ^ (2 * k + 1)) (gaussInt x) := by
  obtain ⟨R, hR⟩ := exists_gt |x|
  have hR0 : 0 < R := lt_of_le_of_lt (abs_nonneg x) hR
  have hu : Summable fun k : ℕ => (R ^ 2) ^ k / (Nat.factorial k : ℝ) := Real.summable_pow_div_factorial _
  set g : ℕ → ℝ → ℝ := fun k y => (erfC k : ℝ) * y ^ (2 * k + 1) with hg
  set g' : ℕ → ℝ → ℝ := fun j y => (-1) ^ j * y ^ (2 * j) / (Nat.factorial j : ℝ) with hg'
  set t : Set ℝ := Set.Ioo (-R) R with ht
  have hder : ∀ n y, y ∈ t → HasDerivAt (g n) (g' n y) y := by
    intro n y _
    have h1 := (hasDerivAt_pow (2 * n + 1) y).const_mul (erfC n : ℝ)
    have hn : (2 * (n : ℝ) + 1) ≠ 0 := by positivity
    refine h1.congr_deriv ?_
    simp only [hg', Nat.add_sub_cancel, erfC_real]
    push_cast
    field_simp
  have hbd : ∀ n y, y ∈ t → ‖g' n y‖ ≤ (R ^ 2) ^ n / (Nat.factorial n : ℝ) := by
    intro n y hy
    have hy' : |y| ≤ R := abs_le.2 ⟨hy.1.le, hy.2.le⟩
    simp only [hg', Real.norm_eq_abs, abs_div, abs_mul, abs_pow, abs_neg, abs_one, one_pow, one_mul, Nat.abs_cast]
    rw [← pow_mul]
    gcongr
  have h0t : (0 : ℝ) ∈ t := ⟨by linarith, hR0⟩
  have hxt : x ∈ t := abs_lt.1 hR
  have hg0 : (fun n => g n 0) = fun _ => 0 := by funext n; simp [hg]
  have hs0 : Summable fun n => g n 0 := by rw [hg0]; exact summable_zero
  have hF : ∀ y ∈ t, HasDerivAt (fun z => ∑' n, g n z) (Real.exp (-y ^ 2)) y := by
    intro y hy
    have h1 := hasDerivAt_tsum_of_isPreconnected hu isOpen_Ioo isPreconnected_Ioo hder hbd h0t hs0 hy
    rwa [(hasSum_gauss y).tsum_eq] at h1
  have hint : gaussInt x = (∑' n, g n x) - ∑' n, g n 0 := by
    unfold gaussInt
    apply intervalIntegral.integral_eq_sub_of_hasDerivAt
    · intro y hy
      apply hF
      have := Set.uIcc_subset_Icc (a₁ := -|x|) (b₁ := -|x|) (a₂ := |x|) (b₂ := |x|)
      rw [ht, Set.mem_Ioo]
      have h2 : |y| ≤ |x| := by
        rcases Set.mem_uIcc.1 hy with h | h
        · rw [abs_of_nonneg h.1, abs_of_nonneg (h.1.trans h.2)]; exact h.2
        · rw [abs_of_nonpos h.2, abs_of_nonpos (h.1.trans h.2)]; linarith [h.1]
      exact abs_lt.1 (lt_of_le_of_lt h2 hR)
    · exact (by fun_prop : Continuous fun t : ℝ => Real.exp (-t ^ 2)).intervalIntegrable _ _
  have hz : (∑' n, g n 0) = 0 := by rw [hg0]; simp
  rw [hz, sub_zero] at hint
  have hsum : Summable fun n => g n x :=
    summable_of_summable_hasDerivAt_of_isPreconnected hu isOpen_Ioo isPreconnected_Ioo hder hbd h0t hs0 hxt
  rw [hint]
  exact hsum.hasSum

/-- The sum of the series in `x²`. -/
theorem hasSum_erf (x : ℝ) : ∃ v, HasSum (fun j => (erfC j : ℝ) * (x ^ 2) ^ j) v ∧ x * v = gaussInt x := by
  have hsum : Summable (fun j => (erfC j : ℝ) * (x ^ 2) ^ j) := by
    refine Summable.of_norm_bounded (Real.summable_pow_div_factorial (x ^ 2)) (fun j => ?_)
    rw [Real.norm_eq_abs, abs_mul, abs_of_nonneg (by positivity : (0 : ℝ) ≤ (x ^ 2) ^ j)]
    have h := expDom_erf.le j
    have h2 : |(erfC j : ℝ)| ≤ 1 / (Nat.factorial j : ℝ) := by
      have : ((|erfC j| : ℚ) : ℝ) ≤ ((1 / (Nat.factorial j : ℚ) : ℚ) : ℝ) := by exact_mod_cast h
      push_cast at this; exact this
    calc |(erfC j : ℝ)| * (x ^ 2) ^ j ≤ 1 / (Nat.factorial j : ℝ) * (x ^ 2) ^ j := by gcongr
      _ = (x ^ 2) ^ j / (Nat.factorial j : ℝ) := by ring
  refine ⟨_, hsum.hasSum, ?_⟩
  have h1 := hsum.hasSum.mul_left x
  refine h1.unique ?_
  have e : (fun j => x * ((erfC j : ℝ) * (x ^ 2) ^ j)) = fun k : ℕ => (erfC k : ℝ) * x ^ (2 * k + 1) := by
    funext j
    rw [pow_succ x (2 * j), pow_mul]; ring
  rw [e]
  exact hasSum_erf_int x

theorem gaussInt_abs_le (x : ℝ) : |gaussInt x| ≤ |x| := by
  unfold gaussInt
  have := intervalIntegral.norm_integral_le_of_norm_le_const (a := (0 : ℝ)) (b := x) (C := 1)
    (f := fun t => Real.exp (-t ^ 2)) (fun t _ => by
      rw [Real.norm_eq_abs, abs_of_pos (Real.exp_pos _)]
      exact Real.exp_le_one_iff.2 (by nlinarith [sq_nonneg t]))
  simpa using this

theorem piE_le (n : ℕ) (hn : 1 ≤ n) : piE n ≤ 1 / 20 := by
  unfold piE
  split_ifs with h
  · rw [div_le_iff₀ (by positivity)]
    have : (10 : ℝ) ^ 1 ≤ 10 ^ n := pow_le_pow_right₀ (by norm_num) hn
    linarith
  · unfold atanE
    have h1 := div_hundred_pow 36 43 0.16 n (lin_le_pow 36 43 3 n (by omega) (by norm_num) 0.16 (by norm_num) (by norm_num))
    have h2 : (1 : ℝ) / 10 ^ n ≤ 1 / 1000 := by
      apply one_div_le_one_div_of_le (by norm_num)
      calc (1000 : ℝ) = 10 ^ 3 := by norm_num
        _ ≤ 10 ^ n := pow_le_pow_right₀ (by norm_num) (by omega)
    have h3 : (1 : ℝ) / 10 ^ 99 ≤ 1 / 10000 := by norm_num
    have e : (1 : ℝ) / 20 / 10 ^ n = 1 / 20 * (1 / 10 ^ n) := by ring
    rw [e]
    generalize (1 : ℝ) / 10 ^ n = w at *
    linarith

/-- The computed factor `2/√π`. -/
theorem two_over_root_pi (ext : BdExt) (hs : SqrtOk ext) (hf : 1 ≤ ext.fuel) (n : ℕ) (h1 : 1 ≤ n) (hn : 8 * n + 9 ≤ 30001) :
    ∃ p r c, Bd.pi ext n = .ok p ∧ Bd.sqrt ext p n = some r ∧ Dec.div Dec.two r = .ok c ∧
      |(c.val : ℝ) - 2 / √Real.pi| ≤ 1 / 5 * piE n + 1 / 10 ^ 97 ∧ |(c.val : ℝ)| ≤ 6 / 5 := by
  obtain ⟨p, hp, hpe⟩ := pi_error ext hf n hn
  have hpE := piE_le n h1
  have hpi3 := Real.pi_gt_d2
  have hpi4 := Real.pi_lt_d2
  have hp3 : (3.09 : ℝ) ≤ p.val := by rw [abs_le] at hpe; linarith [hpe.1]
  obtain ⟨r, hr, hre⟩ := hs.ok p (by
    have : (0 : ℝ) ≤ p.val := by linarith
    exact_mod_cast this)
  set A := √Real.pi with hA
  set P := √(p.val : ℝ) with hP
  have hA2 : A ^ 2 = Real.pi := Real.sq_sqrt Real.pi_pos.le
  have hP2 : P ^ 2 = p.val := Real.sq_sqrt (by linarith)
  have hA1 : 1.75 ≤ A := Real.le_sqrt_of_sq_le (by norm_num; linarith)
  have hP1 : 1.75 ≤ P := Real.le_sqrt_of_sq_le (by norm_num; linarith)
  clear_value A P
  have hη1 : (1 : ℝ) / 10 ^ 98 ≤ 1 / 100 := by norm_num
  have hη0 : (0 : ℝ) < 1 / 10 ^ 98 := by positivity
  have hre' := abs_le.1 hre
  have hr1 : (1.7 : ℝ) ≤ r.val := by
    have : 1 / 10 ^ 98 * P ≤ 1 / 100 * P := mul_le_mul_of_nonneg_right hη1 (by linarith)
    linarith [hre'.1]
  have hrne : r.val ≠ 0 := by
    intro h
    rw [h] at hr1
    norm_num at hr1
  obtain ⟨c, hc, hce⟩ := div_real Dec.two r hrne
  have hv2 : ((Dec.two).val : ℝ) = 2 := by simp
  rw [hv2] at hce
  have hr0 : (0 : ℝ) < r.val := by linarith
  have hq : 2 / (r.val : ℝ) ≤ 1.18 := by rw [div_le_iff₀ hr0]; linarith
  have hq0 : 0 < 2 / (r.val : ℝ) := by positivity
  rw [abs_of_pos hq0] at hce
  have hz : 1 / 10 ^ 99 * (2 / (r.val : ℝ)) ≤ 1 / 10 ^ 98 * 1.18 := by
    apply mul_le_mul _ hq hq0.le hη0.le
    norm_num
  -- three differences
  have d1 : |2 / P - 2 / A| ≤ 0.19 * |(p.val : ℝ) - Real.pi| := by
    have e : 2 / P - 2 / A = 2 * ((Real.pi - p.val) / ((A + P) * (P * A))) := by
      rw [← hA2, ← hP2]
      have : A + P ≠ 0 := by linarith
      field_simp
      ring
    rw [e, abs_mul, abs_div, abs_sub_comm, abs_of_pos (by norm_num : (0 : ℝ) < 2)]
    have hd : (10.7 : ℝ) ≤ (A + P) * (P * A) := by nlinarith
    rw [abs_of_pos (by linarith : 0 < (A + P) * (P * A))]
    rw [mul_div_assoc', div_le_iff₀ (by linarith)]
    have := abs_nonneg ((p.val : ℝ) - Real.pi)
    nlinarith
  have d2 : |2 / (r.val : ℝ) - 2 / P| ≤ 1.2 * (1 / 10 ^ 98) := by
    have e : 2 / (r.val : ℝ) - 2 / P = -((r.val - P) * (2 / (r.val * P))) := by field_simp; ring
    rw [e, abs_neg, abs_mul, abs_of_pos (by positivity : 0 < 2 / ((r.val : ℝ) * P))]
    calc |(r.val : ℝ) - P| * (2 / (r.val * P)) ≤ (1 / 10 ^ 98 * P) * (2 / (r.val * P)) := by gcongr
      _ = 1 / 10 ^ 98 * (2 / (r.val : ℝ)) := by field_simp
      _ ≤ 1 / 10 ^ 98 * 1.18 := by gcongr
      _ ≤ 1.2 * (1 / 10 ^ 98) := by linarith
  refine ⟨p, r, c, hp, hr, hc, ?_, ?_⟩
  · have t1 := abs_sub_le (c.val : ℝ) (2 / r.val) (2 / P)
    have t2 := abs_sub_le (c.val : ℝ) (2 / P) (2 / A)
    have e : (1 : ℝ) / 10 ^ 97 = 10 * (1 / 10 ^ 98) := by norm_num
    rw [e]
    have := abs_nonneg ((p.val : ℝ) - Real.pi)
    linarith
  · have := abs_add_le ((c.val : ℝ) - 2 / r.val) (2 / r.val)
    rw [sub_add_cancel, abs_of_pos hq0] at this
    have h9 : (1 : ℝ) / 10 ^ 98 * 1.18 ≤ 0.01 := by norm_num
    linarith

/-- Error of `erf` for `x² ≤ B`, the part of the factor `2/√π` in terms of the integral. -/
theorem erf_error_fine (ext : BdExt) (hs : SqrtOk ext) (hf : 1 ≤ ext.fuel) (x : Dec) (n B : ℕ) (h1 : 1 ≤ n) (hB : 1 ≤ B)
    (hx : x.val ^ 2 ≤ B) (hn : 8 * n + 9 ≤ 30001) (hn2 : 2 * n + 11 * B + 3 ≤ 30001) :
    ∃ d, Bd.erf ext x n = .ok d ∧ |(d.val : ℝ) - 2 / √Real.pi * gaussInt x.val| ≤
      (1 / 5 * piE n + 1 / 10 ^ 97) * |gaussInt x.val| + 6 / 5 * (|(x.val : ℝ)| * expBound B n (2 * n + 11 * B + 3)) := by
  obtain ⟨p, r, c, hp, hr, hc, hce, hcb⟩ := two_over_root_pi ext hs hf n h1 hn
  obtain ⟨v, hv, hvx⟩ := hasSum_erf (x.val : ℝ)
  have hxx : ((x * x).val : ℝ) = (x.val : ℝ) ^ 2 := by rw [val_mul]; push_cast; ring
  obtain ⟨m, hm, hme⟩ := expDom_error (x * x) n erfTerm erfC expDom_erf divEps divEps_nonneg divEps_le _ follows_erf () trivial
    B hB (by rw [val_mul, abs_of_nonneg (mul_self_nonneg _), ← sq]; exact hx) (2 * n + 11 * B + 3) le_rfl hn2
    (by
      intro h
      have := abs_erfC (2 * n + 11 * B + 3)
      rw [h] at this
      have h2 : (0 : ℚ) < 1 / ((2 * ((2 * n + 11 * B + 3 : ℕ) : ℚ) + 1) * (Nat.factorial (2 * n + 11 * B + 3) : ℚ)) := by positivity
      rw [← this] at h2
      simp at h2) v (by rw [hxx]; exact hv)
  rw [divEps_real] at hme
  change _ ≤ expBound B n (2 * n + 11 * B + 3) at hme
  refine ⟨c * x * m, ?_, ?_⟩
  · unfold Bd.erf
    simp only [hp, hr, hc, hm, Res.ok_bind, Res.unwrapOpt]
    rfl
  rw [← hvx]
  have e : ((c * x * m).val : ℝ) - 2 / √Real.pi * (x.val * v) =
      (c.val - 2 / √Real.pi) * (x.val * v) + c.val * (x.val * (m.val - v)) := by
    rw [val_mul, val_mul]; push_cast; ring
  rw [e]
  have t := abs_add_le (((c.val : ℝ) - 2 / √Real.pi) * (x.val * v)) (c.val * (x.val * (m.val - v)))
  have t1 : |((c.val : ℝ) - 2 / √Real.pi) * (x.val * v)| ≤ (1 / 5 * piE n + 1 / 10 ^ 97) * |(x.val : ℝ) * v| := by
    rw [abs_mul]
    exact mul_le_mul_of_nonneg_right hce (abs_nonneg _)
  have t2 : |(c.val : ℝ) * (x.val * (m.val - v))| ≤ 6 / 5 * (|(x.val : ℝ)| * expBound B n (2 * n + 11 * B + 3)) := by
    rw [abs_mul, abs_mul]
    gcongr
  linarith

/-- Error of `erf` for `x² ≤ B`. -/
theorem erf_error (ext : BdExt) (hs : SqrtOk ext) (hf : 1 ≤ ext.fuel) (x : Dec) (n B : ℕ) (h1 : 1 ≤ n) (hB : 1 ≤ B)
    (hx : x.val ^ 2 ≤ B) (hn : 8 * n + 9 ≤ 30001) (hn2 : 2 * n + 11 * B + 3 ≤ 30001) :
    ∃ d, Bd.erf ext x n = .ok d ∧ |(d.val : ℝ) - 2 / √Real.pi * gaussInt x.val| ≤
      |(x.val : ℝ)| * (1 / 5 * piE n + 1 / 10 ^ 97 + 6 / 5 * expBound B n (2 * n + 11 * B + 3)) := by
  obtain ⟨d, hd, he⟩ := erf_error_fine ext hs hf x n B h1 hB hx hn hn2
  refine ⟨d, hd, he.trans ?_⟩
  have hp := (piE_pos n).le
  have h : (1 / 5 * piE n + 1 / 10 ^ 97) * |gaussInt x.val| ≤ (1 / 5 * piE n + 1 / 10 ^ 97) * |(x.val : ℝ)| := by
    have := gaussInt_abs_le (x.val : ℝ)
    gcongr
  linarith

end Bd
end Verif

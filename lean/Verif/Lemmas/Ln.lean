import Mathlib.Analysis.SpecialFunctions.Log.Basic
import Verif.Lemmas.GeoSeries
import Verif.Props.Accuracy

/-! # Natural logarithm -/

namespace Verif
namespace Bd
open Dec

theorem two_thirds_pow_small (n K : ℕ) (h : 12 * n ≤ K) : (2 / 3 : ℚ) ^ K ≤ 1 / 100 ^ n := by
  calc (2 / 3 : ℚ) ^ K ≤ (2 / 3) ^ (12 * n) := pow_le_pow_of_le_one (by norm_num) (by norm_num) h
    _ = ((2 / 3) ^ 12) ^ n := by rw [pow_mul]
    _ ≤ (1 / 100) ^ n := by gcongr; norm_num
    _ = 1 / 100 ^ n := by rw [one_div_pow]

/-- Error of the two logarithm series on `[-2/3, 2/3]`. -/
noncomputable def lnE (n : ℕ) : ℝ := 1 / 20 / 10 ^ n + 2 / 10 ^ 99 + 1 / 100 ^ n * (96 * n + 83)

theorem ln_bound (n : ℕ) : 1 / 20 / 10 ^ n + ((divEps : ℚ) : ℝ) * ((3 : ℚ) : ℝ) +
    1 / 100 ^ n * (((12 * n + 10 : ℕ) : ℝ) * ((3 : ℚ) : ℝ) + ((12 * n + 10 : ℕ) : ℝ) / 2 +
      ((3 : ℚ) : ℝ) * (1 + ((12 * n + 10 : ℕ) : ℝ) * ((3 : ℚ) : ℝ) / 2)) ≤ lnE n := by
  unfold lnE
  have e : ((divEps : ℚ) : ℝ) * ((3 : ℚ) : ℝ) ≤ 2 / 10 ^ 99 := by unfold divEps; norm_num
  have hu : (0 : ℝ) < 1 / 100 ^ n := by positivity
  push_cast at *
  have : (12 * (n : ℝ) + 10) * 3 + (12 * n + 10) / 2 + 3 * (1 + (12 * n + 10) * 3 / 2) ≤ 96 * n + 83 := by linarith
  have := mul_le_mul_of_nonneg_left this hu.le
  linarith

theorem abs_real_lt (q r : ℚ) (h : |q| ≤ r) (hr : r < 1) : |(q : ℝ)| < 1 := by
  have : ((|q| : ℚ) : ℝ) ≤ (r : ℝ) := by exact_mod_cast h
  have h2 : (r : ℝ) < 1 := by exact_mod_cast hr
  push_cast at this
  linarith

theorem lnPlus_series (x : Dec) (n : ℕ) (hx : |x.val| ≤ 2 / 3) (hn : 12 * n + 10 ≤ 30001) :
    ∃ d, maclaurin x n lnPlusTerm () = .ok d ∧ |(d.val : ℝ) - Real.log (1 + x.val)| ≤ lnE n := by
  obtain ⟨d, h1, h2⟩ := geoLike_error x n lnPlusTerm lnPlusC geoLike_lnPlus divEps divEps_nonneg divEps_le _ follows_lnPlus ()
    trivial (2 / 3) 3 (by norm_num) (by norm_num) hx (12 * n + 10)
    (by push_cast; linarith [(by positivity : (0 : ℚ) ≤ n)]) (two_thirds_pow_small n _ (by omega)) hn
    (by
      unfold lnPlusC
      rw [if_neg (by omega)]
      split_ifs
      · rw [neg_ne_zero]; positivity
      · positivity) _ (hasSum_lnPlus _ (abs_real_lt _ _ hx (by norm_num)))
  exact ⟨d, h1, h2.trans (ln_bound n)⟩

theorem lnMinus_series (x : Dec) (n : ℕ) (hx : |x.val| ≤ 2 / 3) (hn : 12 * n + 10 ≤ 30001) :
    ∃ d, maclaurin x n lnMinusTerm () = .ok d ∧ |(d.val : ℝ) - Real.log (1 - x.val)| ≤ lnE n := by
  obtain ⟨d, h1, h2⟩ := geoLike_error x n lnMinusTerm lnMinusC geoLike_lnMinus divEps divEps_nonneg divEps_le _ follows_lnMinus ()
    trivial (2 / 3) 3 (by norm_num) (by norm_num) hx (12 * n + 10)
    (by push_cast; linarith [(by positivity : (0 : ℚ) ≤ n)]) (two_thirds_pow_small n _ (by omega)) hn
    (by
      unfold lnMinusC
      rw [if_neg (by omega), neg_ne_zero]
      positivity) _ (hasSum_lnMinus _ (abs_real_lt _ _ hx (by norm_num)))
  exact ⟨d, h1, h2.trans (ln_bound n)⟩

/-- The downward reduction stops at the first power of the scale that brings the argument below the limit. -/
theorem lnDown_spec (lim scale h : Dec) (K : ℕ) : ∀ (fuel : ℕ) (x e : Dec), K < fuel → x.val * scale.val ^ K < lim.val →
    ∃ k x' e', k ≤ K ∧ lnDown lim scale h fuel x e = .ok (x', e') ∧ x'.val = x.val * scale.val ^ k ∧
      e'.val = e.val + k * h.val ∧ x'.val < lim.val ∧ (∀ j < k, lim.val ≤ x.val * scale.val ^ j) := by
  induction K with
  | zero =>
    intro fuel x e hf hx
    obtain ⟨f, rfl⟩ : ∃ f, fuel = f + 1 := ⟨fuel - 1, by omega⟩
    simp only [pow_zero, mul_one] at hx
    refine ⟨0, x, e, le_rfl, ?_, by simp, by simp, hx, by simp⟩
    rw [lnDown, if_neg]
    · rfl
    · rw [le_iff]; linarith
  | succ K ih =>
    intro fuel x e hf hx
    obtain ⟨f, rfl⟩ : ∃ f, fuel = f + 1 := ⟨fuel - 1, by omega⟩
    by_cases hlt : x.val < lim.val
    · refine ⟨0, x, e, by omega, ?_, by simp, by simp, hlt, by simp⟩
      rw [lnDown, if_neg]
      · rfl
      · rw [le_iff]; linarith
    · push Not at hlt
      obtain ⟨k, x', e', hk, h1, h2, h3, h4, h5⟩ := ih f (x * scale) (e + h) (by omega) (by
        rw [val_mul, mul_assoc, ← pow_succ']; exact hx)
      refine ⟨k + 1, x', e', by omega, ?_, ?_, ?_, h4, ?_⟩
      · rw [lnDown, if_pos ((le_iff _ _).2 hlt), h1]
      · rw [h2, val_mul, mul_assoc, ← pow_succ']
      · rw [h3, val_add]; push_cast; ring
      · intro j hj
        cases j with
        | zero => simpa using hlt
        | succ j =>
          have := h5 j (by omega)
          rw [val_mul, mul_assoc, ← pow_succ'] at this
          exact this

theorem lnUp_spec (lim scale h : Dec) (K : ℕ) : ∀ (fuel : ℕ) (x e : Dec), K < fuel → lim.val < x.val * scale.val ^ K →
    ∃ k x' e', k ≤ K ∧ lnUp lim scale h fuel x e = .ok (x', e') ∧ x'.val = x.val * scale.val ^ k ∧
      e'.val = e.val - k * h.val ∧ lim.val < x'.val ∧ (∀ j < k, x.val * scale.val ^ j ≤ lim.val) := by
  induction K with
  | zero =>
    intro fuel x e hf hx
    obtain ⟨f, rfl⟩ : ∃ f, fuel = f + 1 := ⟨fuel - 1, by omega⟩
    simp only [pow_zero, mul_one] at hx
    refine ⟨0, x, e, le_rfl, ?_, by simp, by simp, hx, by simp⟩
    rw [lnUp, if_neg]
    · rfl
    · rw [le_iff]; linarith
  | succ K ih =>
    intro fuel x e hf hx
    obtain ⟨f, rfl⟩ : ∃ f, fuel = f + 1 := ⟨fuel - 1, by omega⟩
    by_cases hlt : lim.val < x.val
    · refine ⟨0, x, e, by omega, ?_, by simp, by simp, hlt, by simp⟩
      rw [lnUp, if_neg]
      · rfl
      · rw [le_iff]; linarith
    · push Not at hlt
      obtain ⟨k, x', e', hk, h1, h2, h3, h4, h5⟩ := ih f (x * scale) (e - h) (by omega) (by
        rw [val_mul, mul_assoc, ← pow_succ']; exact hx)
      refine ⟨k + 1, x', e', by omega, ?_, ?_, ?_, h4, ?_⟩
      · rw [lnUp, if_pos ((le_iff _ _).2 hlt), h1]
      · rw [h2, val_mul, mul_assoc, ← pow_succ']
      · rw [h3, val_sub]; push_cast; ring
      · intro j hj
        cases j with
        | zero => simpa using hlt
        | succ j =>
          have := h5 j (by omega)
          rw [val_mul, mul_assoc, ← pow_succ'] at this
          exact this

/-! ## Real estimates -/

theorem exp_half_bounds : 1.648 < Real.exp (1 / 2) ∧ Real.exp (1 / 2) < 1.649 := by
  have h1 := Real.exp_one_gt_d9
  have h2 := Real.exp_one_lt_d9
  have h3 : Real.exp (1 / 2) * Real.exp (1 / 2) = Real.exp 1 := by rw [← Real.exp_add]; norm_num
  have h0 := Real.exp_pos (1 / 2)
  constructor <;> nlinarith

theorem exp_neg_half_bounds : 0.606 < Real.exp (-(1 / 2)) ∧ Real.exp (-(1 / 2)) < 0.607 := by
  have h := exp_half_bounds
  have h3 : Real.exp (1 / 2) * Real.exp (-(1 / 2)) = 1 := by rw [← Real.exp_add]; simp
  have h0 := Real.exp_pos (-(1 / 2))
  constructor <;> nlinarith [h.1, h.2]

/-- A number near `exp t` has a logarithm near `t`. -/
theorem log_near (s t δ : ℝ) (hs : |s - Real.exp t| ≤ δ) (hp : δ + 1 / 2 ≤ Real.exp t) : 0 < s ∧ |Real.log s - t| ≤ 2 * δ := by
  have hE := Real.exp_pos t
  rw [abs_le] at hs
  have hs0 : 1 / 2 ≤ s := by linarith [hs.1]
  have hδ : 0 ≤ δ := by linarith [hs.1, hs.2]
  refine ⟨by linarith, ?_⟩
  have e : Real.log s - t = Real.log (s / Real.exp t) := by
    rw [Real.log_div (by linarith) hE.ne', Real.log_exp]
  rw [abs_le]
  constructor
  · -- t - log s = log (exp t / s) ≤ exp t / s - 1
    have h1 := Real.log_le_sub_one_of_pos (x := Real.exp t / s) (by positivity)
    rw [Real.log_div hE.ne' (by linarith), Real.log_exp] at h1
    have h2 : Real.exp t / s - 1 ≤ 2 * δ := by
      rw [div_sub_one (by linarith), div_le_iff₀ (by linarith)]
      nlinarith [hs.1]
    linarith
  · rw [e]
    have h1 := Real.log_le_sub_one_of_pos (x := s / Real.exp t) (by positivity)
    have h2 : s / Real.exp t - 1 ≤ 2 * δ := by
      rw [div_sub_one hE.ne', div_le_iff₀ hE]
      nlinarith [hs.2]
    linarith

/-- The error of the scale factors `exp(±1/2)`. -/
noncomputable def scaleE (n : ℕ) : ℝ := if n < 3 then 1 / 100 else expBound 1 n (2 * n + 14)

theorem exp_half (n : ℕ) (h1 : 1 ≤ n) (hn : 2 * n + 14 ≤ 30001) :
    ∃ d, Bd.exp Dec.half n = .ok d ∧ |(d.val : ℝ) - Real.exp (1 / 2)| ≤ scaleE n := by
  have hb := exp_half_bounds
  unfold scaleE
  by_cases h3 : n < 3
  · rw [if_pos h3]
    obtain rfl | rfl : n = 1 ∨ n = 2 := by omega
    · refine ⟨⟨165, 2⟩, by decide +kernel, ?_⟩
      rw [abs_le]
      norm_num [Dec.val]
      constructor <;> linarith [hb.1, hb.2]
    · refine ⟨⟨1649, 3⟩, by decide +kernel, ?_⟩
      rw [abs_le]
      norm_num [Dec.val]
      constructor <;> linarith [hb.1, hb.2]
  rw [if_neg h3]
  obtain ⟨d, h1, h2⟩ := C23_exp_error Dec.half n 1 le_rfl (by rw [val_half]; norm_num [abs_of_pos]) (by omega)
  refine ⟨d, h1, ?_⟩
  rw [val_half] at h2
  push_cast at h2
  exact h2

theorem exp_neg_half (n : ℕ) (h1 : 1 ≤ n) (hn : 2 * n + 14 ≤ 30001) :
    ∃ d, Bd.exp (-Dec.half) n = .ok d ∧ |(d.val : ℝ) - Real.exp (-(1 / 2))| ≤ scaleE n := by
  have hb := exp_neg_half_bounds
  unfold scaleE
  by_cases h3 : n < 3
  · rw [if_pos h3]
    obtain rfl | rfl : n = 1 ∨ n = 2 := by omega
    · refine ⟨⟨61, 2⟩, by decide +kernel, ?_⟩
      rw [abs_le]
      rw [show ((⟨61, 2⟩ : Dec).val : ℝ) = 0.61 by norm_num [Dec.val]]
      constructor <;> linarith [hb.1, hb.2]
    · refine ⟨⟨607, 3⟩, by decide +kernel, ?_⟩
      rw [abs_le]
      rw [show ((⟨607, 3⟩ : Dec).val : ℝ) = 0.607 by norm_num [Dec.val]]
      constructor <;> linarith [hb.1, hb.2]
  rw [if_neg h3]
  obtain ⟨d, h1, h2⟩ := C23_exp_error (-Dec.half) n 1 le_rfl (by rw [val_neg, val_half]; norm_num [abs_of_pos]) (by omega)
  refine ⟨d, h1, ?_⟩
  rw [val_neg, val_half] at h2
  push_cast at h2
  exact h2

theorem scaleE_le (n : ℕ) : scaleE n ≤ 1 / 100 := by
  unfold scaleE
  by_cases h3 : n < 3
  · rw [if_pos h3]
  rw [if_neg h3]
  obtain ⟨m, rfl⟩ : ∃ m, n = 3 + m := ⟨n - 3, by omega⟩
  unfold expBound
  have he : Real.exp ((1 : ℕ) : ℝ) ≤ 3 := by
    have := Real.exp_one_lt_d9
    push_cast; linarith
  have he0 := Real.exp_pos ((1 : ℕ) : ℝ)
  generalize Real.exp ((1 : ℕ) : ℝ) = e at *
  have hm : (m : ℝ) + 1 ≤ 100 ^ m := by
    have := Nat.lt_pow_self (n := m) (a := 100) (by norm_num)
    have h : m + 1 ≤ 100 ^ m := this
    exact_mod_cast h
  have h1 : (1 : ℝ) / 20 / 10 ^ (3 + m) ≤ 1 / 20000 := by
    rw [pow_add, div_le_iff₀ (by positivity)]
    have : (1 : ℝ) ≤ 10 ^ m := one_le_pow₀ (by norm_num)
    nlinarith
  have h2 : 1 / 2 * (1 / 10 ^ 99) * e ≤ 1 / 10000 := by
    calc 1 / 2 * (1 / 10 ^ 99) * e ≤ 1 / 2 * (1 / 10 ^ 99) * 3 := by gcongr
      _ ≤ 1 / 10000 := by norm_num
  have h3 : 1 / 100 ^ (3 + m) * (e + ((2 * (3 + m) + 14 : ℕ) : ℝ) / 2 + e * (1 + e / 2)) ≤ 1 / 1000 := by
    rw [pow_add, div_mul_eq_mul_div, one_mul, div_le_iff₀ (by positivity)]
    push_cast
    have hm0 : (0 : ℝ) ≤ m := by positivity
    have h4 : e * (1 + e / 2) ≤ 7.5 := by nlinarith
    nlinarith
  linarith

/-- `ln` of a number that is at least one. -/
theorem ln_error_ge (ext : BdExt) (x : Dec) (n : ℕ) (hx : 1 ≤ x.val) (hn : 12 * n + 10 ≤ 30001)
    (h1n : 1 ≤ n) (hfuel : 3 * Real.log x.val + 2 ≤ ext.fuel) :
    ∃ d, Bd.ln ext x n = .ok (some d) ∧ |(d.val : ℝ) - Real.log x.val| ≤ lnE n + 5 * Real.log x.val * scaleE n := by
  obtain ⟨lim, hlim, hlime⟩ := exp_half n h1n (by omega)
  obtain ⟨sc, hsc, hsce⟩ := exp_neg_half n h1n (by omega)
  have hδ := scaleE_le n
  have hb1 := exp_half_bounds
  have hb2 := exp_neg_half_bounds
  have hX : (1 : ℝ) ≤ (x.val : ℝ) := by exact_mod_cast hx
  have hlogX : 0 ≤ Real.log x.val := Real.log_nonneg hX
  obtain ⟨hlim0, hll⟩ := log_near _ _ _ hlime (by linarith [hb1.1])
  obtain ⟨hsc0, hls⟩ := log_near _ _ _ hsce (by linarith [hb2.1])
  have hδ0 : 0 ≤ scaleE n := (abs_nonneg _).trans hlime
  rw [abs_le] at hll hls
  -- termination
  obtain ⟨K, hK⟩ : ∃ K, ext.fuel = K + 1 := ⟨ext.fuel - 1, by
    have : (2 : ℝ) ≤ ext.fuel := by linarith
    have : 2 ≤ ext.fuel := by exact_mod_cast this
    omega⟩
  have hKR : (ext.fuel : ℝ) = K + 1 := by rw [hK]; push_cast; rfl
  have hstop : x.val * sc.val ^ K < lim.val := by
    have : (x.val : ℝ) * (sc.val : ℝ) ^ K < lim.val := by
      rw [← Real.log_lt_log_iff (by positivity) hlim0, Real.log_mul (by positivity) (by positivity), Real.log_pow]
      nlinarith [hls.1, hls.2, hll.1]
    exact_mod_cast this
  obtain ⟨k, x', e', hk, h1, h2, h3, h4, h5⟩ := lnDown_spec lim sc Dec.half K (K + 1) x (Dec.ofInt 0) (by omega) hstop
  have h2R : (x'.val : ℝ) = x.val * (sc.val : ℝ) ^ k := by rw [h2]; push_cast; rfl
  have h4R : (x'.val : ℝ) < lim.val := by exact_mod_cast h4
  have hx'0 : (0 : ℝ) < x'.val := by rw [h2R]; positivity
  have hlog' : Real.log x'.val = Real.log x.val + k * Real.log sc.val := by
    rw [h2R, Real.log_mul (by positivity) (by positivity), Real.log_pow]
  -- lower end and number of steps
  have hlow : (0.97 : ℝ) ≤ x'.val ∧ (k : ℝ) * 0.48 ≤ Real.log x.val := by
    rcases Nat.eq_zero_or_pos k with h0 | h0
    · subst h0
      rw [h2R]
      constructor
      · simp; linarith
      · simp; exact hlogX
    · have h6 := h5 (k - 1) (by omega)
      have h6R : (lim.val : ℝ) ≤ x.val * (sc.val : ℝ) ^ (k - 1) := by exact_mod_cast h6
      constructor
      · have h7 : (x'.val : ℝ) = x.val * (sc.val : ℝ) ^ (k - 1) * sc.val := by
          rw [h2R, mul_assoc, ← pow_succ, Nat.sub_add_cancel h0]
        rw [h7]
        rw [abs_le] at hlime hsce
        have h8 : (lim.val : ℝ) * sc.val ≤ x.val * (sc.val : ℝ) ^ (k - 1) * sc.val :=
          mul_le_mul_of_nonneg_right h6R hsc0.le
        nlinarith [hb1.1, hb1.2, hb2.1, hb2.2, hlime.1, hsce.1]
      · have h7 := Real.log_le_log hlim0 h6R
        rw [Real.log_mul (by positivity) (by positivity), Real.log_pow] at h7
        have hk1 : ((k - 1 : ℕ) : ℝ) = k - 1 := by
          rw [Nat.cast_sub (by omega)]; simp
        rw [hk1] at h7
        have hk1' : (1 : ℝ) ≤ k := by exact_mod_cast h0
        nlinarith [hls.1, hls.2, hll.1]
  have hy : |(x' - Dec.one).val| ≤ 2 / 3 := by
    rw [val_sub, val_one]
    have : |(x'.val : ℝ) - 1| ≤ 2 / 3 := by
      rw [abs_le]
      rw [abs_le] at hlime
      constructor <;> linarith [hlow.1, hlime.2, hb1.2]
    have h : ((|x'.val - 1| : ℚ) : ℝ) ≤ ((2 / 3 : ℚ) : ℝ) := by push_cast; exact this
    exact_mod_cast h
  obtain ⟨m, hm, hme⟩ := lnPlus_series (x' - Dec.one) n hy hn
  refine ⟨m + e', ?_, ?_⟩
  · unfold Bd.ln
    rw [if_neg, if_pos]
    · simp only [hlim, hsc, Res.ok_bind, hK, h1, hm]; rfl
    · rw [le_iff, val_one]; exact hx
    · rw [Bool.or_eq_true, isZero_iff, isNegative_iff]
      rintro (h | h) <;> linarith
  · have e1 : (1 : ℝ) + ((x' - Dec.one).val : ℝ) = x'.val := by rw [val_sub, val_one]; push_cast; ring
    rw [e1] at hme
    have e2 : ((m + e').val : ℝ) = m.val + k / 2 := by
      rw [val_add, h3, val_half, val_ofInt]; push_cast; ring
    rw [e2]
    have e3 : (m.val : ℝ) + k / 2 - Real.log x.val = (m.val - Real.log x'.val) + k * (Real.log sc.val + 1 / 2) := by
      rw [hlog']; ring
    rw [e3]
    have b1 := abs_add_le ((m.val : ℝ) - Real.log x'.val) (k * (Real.log sc.val + 1 / 2))
    have b2 : |(k : ℝ) * (Real.log sc.val + 1 / 2)| ≤ k * (2 * scaleE n) := by
      rw [abs_mul, abs_of_nonneg (by positivity : (0 : ℝ) ≤ k)]
      gcongr
      rw [abs_le]
      constructor <;> linarith [hls.1, hls.2]
    have b3 : (k : ℝ) * (2 * scaleE n) ≤ 5 * Real.log x.val * scaleE n := by nlinarith [hlow.2]
    linarith

/-- `ln` of a number below one. -/
theorem ln_error_lt (ext : BdExt) (x : Dec) (n : ℕ) (hx0 : 0 < x.val) (hx : x.val < 1) (hn : 12 * n + 10 ≤ 30001)
    (h1n : 1 ≤ n) (hfuel : 3 * -Real.log x.val + 2 ≤ ext.fuel) :
    ∃ d, Bd.ln ext x n = .ok (some d) ∧ |(d.val : ℝ) - Real.log x.val| ≤ lnE n + 5 * -Real.log x.val * scaleE n := by
  obtain ⟨lim, hlim, hlime⟩ := exp_neg_half n h1n (by omega)
  obtain ⟨sc, hsc, hsce⟩ := exp_half n h1n (by omega)
  have hδ := scaleE_le n
  have hb1 := exp_half_bounds
  have hb2 := exp_neg_half_bounds
  have hX : (x.val : ℝ) < 1 := by exact_mod_cast hx
  have hX0 : (0 : ℝ) < (x.val : ℝ) := by exact_mod_cast hx0
  have hlogX : Real.log x.val ≤ 0 := Real.log_nonpos hX0.le hX.le
  obtain ⟨hlim0, hll⟩ := log_near _ _ _ hlime (by linarith [hb2.1])
  obtain ⟨hsc0, hls⟩ := log_near _ _ _ hsce (by linarith [hb1.1])
  have hδ0 : 0 ≤ scaleE n := (abs_nonneg _).trans hlime
  rw [abs_le] at hll hls
  obtain ⟨K, hK⟩ : ∃ K, ext.fuel = K + 1 := ⟨ext.fuel - 1, by
    have : (2 : ℝ) ≤ ext.fuel := by linarith
    have : 2 ≤ ext.fuel := by exact_mod_cast this
    omega⟩
  have hKR : (ext.fuel : ℝ) = K + 1 := by rw [hK]; push_cast; rfl
  have hstop : lim.val < x.val * sc.val ^ K := by
    have : (lim.val : ℝ) < (x.val : ℝ) * (sc.val : ℝ) ^ K := by
      rw [← Real.log_lt_log_iff hlim0 (by positivity), Real.log_mul (by positivity) (by positivity), Real.log_pow]
      nlinarith [hls.1, hls.2, hll.2]
    exact_mod_cast this
  obtain ⟨k, x', e', hk, h1, h2, h3, h4, h5⟩ := lnUp_spec lim sc Dec.half K (K + 1) x (Dec.ofInt 0) (by omega) hstop
  have h2R : (x'.val : ℝ) = x.val * (sc.val : ℝ) ^ k := by rw [h2]; push_cast; rfl
  have h4R : (lim.val : ℝ) < x'.val := by exact_mod_cast h4
  have hx'0 : (0 : ℝ) < x'.val := by rw [h2R]; positivity
  have hlog' : Real.log x'.val = Real.log x.val + k * Real.log sc.val := by
    rw [h2R, Real.log_mul (by positivity) (by positivity), Real.log_pow]
  have hlow : (x'.val : ℝ) ≤ 1.03 ∧ (k : ℝ) * 0.48 ≤ -Real.log x.val := by
    rcases Nat.eq_zero_or_pos k with h0 | h0
    · subst h0
      rw [h2R]
      constructor
      · simp; linarith
      · simp; exact hlogX
    · have h6 := h5 (k - 1) (by omega)
      have h6R : (x.val : ℝ) * (sc.val : ℝ) ^ (k - 1) ≤ lim.val := by exact_mod_cast h6
      constructor
      · have h7 : (x'.val : ℝ) = x.val * (sc.val : ℝ) ^ (k - 1) * sc.val := by
          rw [h2R, mul_assoc, ← pow_succ, Nat.sub_add_cancel h0]
        rw [h7]
        rw [abs_le] at hlime hsce
        have h8 : (x.val : ℝ) * (sc.val : ℝ) ^ (k - 1) * sc.val ≤ lim.val * sc.val :=
          mul_le_mul_of_nonneg_right h6R hsc0.le
        nlinarith [hb1.1, hb1.2, hb2.1, hb2.2, hlime.2, hsce.2]
      · have h7 := Real.log_le_log (by positivity) h6R
        rw [Real.log_mul (by positivity) (by positivity), Real.log_pow] at h7
        have hk1 : ((k - 1 : ℕ) : ℝ) = k - 1 := by
          rw [Nat.cast_sub (by omega)]; simp
        rw [hk1] at h7
        have hk1' : (1 : ℝ) ≤ k := by exact_mod_cast h0
        nlinarith [hls.1, hls.2, hll.2]
  have hy : |(Dec.one - x').val| ≤ 2 / 3 := by
    rw [val_sub, val_one]
    have : |1 - (x'.val : ℝ)| ≤ 2 / 3 := by
      rw [abs_le]
      rw [abs_le] at hlime
      constructor <;> linarith [hlow.1, hlime.1, hb2.1]
    have h : ((|1 - x'.val| : ℚ) : ℝ) ≤ ((2 / 3 : ℚ) : ℝ) := by push_cast; exact this
    exact_mod_cast h
  obtain ⟨m, hm, hme⟩ := lnMinus_series (Dec.one - x') n hy hn
  refine ⟨m + e', ?_, ?_⟩
  · unfold Bd.ln
    rw [if_neg, if_neg]
    · simp only [hlim, hsc, Res.ok_bind, hK, h1, hm]; rfl
    · rw [le_iff, val_one]; linarith
    · rw [Bool.or_eq_true, isZero_iff, isNegative_iff]
      rintro (h | h) <;> linarith
  · have e1 : (1 : ℝ) - ((Dec.one - x').val : ℝ) = x'.val := by rw [val_sub, val_one]; push_cast; ring
    rw [e1] at hme
    have e2 : ((m + e').val : ℝ) = m.val - k / 2 := by
      rw [val_add, h3, val_half, val_ofInt]; push_cast; ring
    rw [e2]
    have e3 : (m.val : ℝ) - k / 2 - Real.log x.val = (m.val - Real.log x'.val) + k * (Real.log sc.val - 1 / 2) := by
      rw [hlog']; ring
    rw [e3]
    have b1 := abs_add_le ((m.val : ℝ) - Real.log x'.val) (k * (Real.log sc.val - 1 / 2))
    have b2 : |(k : ℝ) * (Real.log sc.val - 1 / 2)| ≤ k * (2 * scaleE n) := by
      rw [abs_mul, abs_of_nonneg (by positivity : (0 : ℝ) ≤ k)]
      gcongr
      rw [abs_le]
      constructor <;> linarith [hls.1, hls.2]
    have b3 : (k : ℝ) * (2 * scaleE n) ≤ 5 * -Real.log x.val * scaleE n := by nlinarith [hlow.2]
    linarith

/-- `ln` on its whole domain. -/
theorem ln_error (ext : BdExt) (x : Dec) (n : ℕ) (hx0 : 0 < x.val) (hn : 12 * n + 10 ≤ 30001)
    (h1n : 1 ≤ n) (hfuel : 3 * |Real.log x.val| + 2 ≤ ext.fuel) :
    ∃ d, Bd.ln ext x n = .ok (some d) ∧ |(d.val : ℝ) - Real.log x.val| ≤ lnE n + 5 * |Real.log x.val| * scaleE n := by
  have hX0 : (0 : ℝ) < (x.val : ℝ) := by exact_mod_cast hx0
  by_cases h : 1 ≤ x.val
  · have hX : (1 : ℝ) ≤ (x.val : ℝ) := by exact_mod_cast h
    rw [abs_of_nonneg (Real.log_nonneg hX)] at *
    exact ln_error_ge ext x n h hn h1n hfuel
  · push Not at h
    have hX : (x.val : ℝ) < 1 := by exact_mod_cast h
    rw [abs_of_nonpos (Real.log_nonpos hX0.le hX.le)] at *
    exact ln_error_lt ext x n hx0 h hn h1n hfuel

end Bd
end Verif

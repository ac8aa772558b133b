import Mathlib.Analysis.SpecialFunctions.Log.Base
import Verif.Props.Accuracy
import Verif.Props.Inverse

/-! # Error of `tan`, `log` and `pow` -/

namespace Verif
open Bd Dec

/-- Error of a quotient of two approximations. -/
theorem quotient_error {a b L M ea eb : ℝ} (hM : M ≠ 0) (ha : |a - L| ≤ ea) (hb : |b - M| ≤ eb) (h : eb ≤ |M| / 2) :
    b ≠ 0 ∧ |a / b - L / M| ≤ 2 * (ea + |L / M| * eb) / |M| := by
  have hMp : 0 < |M| := abs_pos.2 hM
  have hbM : |M| / 2 ≤ |b| := by
    have := abs_sub_abs_le_abs_sub M b
    rw [abs_sub_comm] at this
    linarith
  have hb0 : b ≠ 0 := by intro h0; rw [h0, abs_zero] at hbM; linarith
  refine ⟨hb0, ?_⟩
  have e : a / b - L / M = ((a - L) - L / M * (b - M)) / b := by field_simp; ring
  rw [e, abs_div]
  have hnum : |(a - L) - L / M * (b - M)| ≤ ea + |L / M| * eb := by
    refine (abs_sub _ _).trans ?_
    rw [abs_mul]
    gcongr
  have hnn : 0 ≤ ea + |L / M| * eb := (abs_nonneg _).trans hnum
  calc |(a - L) - L / M * (b - M)| / |b| ≤ (ea + |L / M| * eb) / (|M| / 2) := by gcongr
    _ = _ := by field_simp

/-- Error of the decimal quotient, which keeps 100 digits. -/
theorem div_error {a b : Dec} {L M ea eb : ℝ} (hM : M ≠ 0) (ha : |(a.val : ℝ) - L| ≤ ea) (hb : |(b.val : ℝ) - M| ≤ eb) (h : eb ≤ |M| / 2) :
    ∃ q, Dec.div a b = .ok q ∧ |(q.val : ℝ) - L / M| ≤ (1 + 1 / 10 ^ 99) * (2 * (ea + |L / M| * eb) / |M|) + 1 / 10 ^ 99 * |L / M| := by
  obtain ⟨h0, h1⟩ := quotient_error hM ha hb h
  have h0' : b.val ≠ 0 := by exact_mod_cast h0
  obtain ⟨q, hq, he⟩ := div_real a b h0'
  refine ⟨q, hq, ?_⟩
  have h2 : |(a.val : ℝ) / b.val| ≤ |L / M| + 2 * (ea + |L / M| * eb) / |M| := by
    have := abs_sub_abs_le_abs_sub ((a.val : ℝ) / b.val) (L / M)
    linarith
  calc |(q.val : ℝ) - L / M| ≤ |(q.val : ℝ) - a.val / b.val| + |(a.val : ℝ) / b.val - L / M| := abs_sub_le _ _ _
    _ ≤ 1 / 10 ^ 99 * (|L / M| + 2 * (ea + |L / M| * eb) / |M|) + 2 * (ea + |L / M| * eb) / |M| := by
      refine add_le_add (he.trans ?_) h1
      gcongr
    _ = _ := by ring

theorem exp_lipschitz {a b B : ℝ} (ha : a ≤ B) (hb : b ≤ B) : |Real.exp a - Real.exp b| ≤ Real.exp B * |a - b| := by
  wlog h : b ≤ a with H
  · rw [abs_sub_comm, abs_sub_comm a]; exact H hb ha (le_of_lt (not_le.1 h))
  have h1 : Real.exp b ≤ Real.exp a := Real.exp_le_exp.2 h
  rw [abs_of_nonneg (by linarith), abs_of_nonneg (by linarith)]
  have h2 := Real.add_one_le_exp (b - a)
  have h3 : Real.exp b = Real.exp a * Real.exp (b - a) := by rw [← Real.exp_add]; congr 1; ring
  have h4 : Real.exp a ≤ Real.exp B := Real.exp_le_exp.2 ha
  calc Real.exp a - Real.exp b = Real.exp a * (1 - Real.exp (b - a)) := by rw [h3]; ring
    _ ≤ Real.exp a * (a - b) := mul_le_mul_of_nonneg_left (by linarith) (Real.exp_pos a).le
    _ ≤ _ := mul_le_mul_of_nonneg_right h4 (by linarith)

/-- **C64** Away from the poles the decimal tangent is within `5·10^-n / cos² x` of the real tangent. -/
theorem C64_tan_accurate (x : Dec) (n B : ℕ) (hB : 1 ≤ B) (hx : |x.val| ≤ B) (hn : B + 2 ≤ n) (hn2 : n + B ≤ 98)
    (hc : 2 / 10 ^ n ≤ |Real.cos (x.val : ℝ)|) :
    ∃ d, Bd.tan x n = .ok d ∧ |(d.val : ℝ) - Real.tan (x.val : ℝ)| ≤ 5 / Real.cos (x.val : ℝ) ^ 2 * (1 / 10 ^ n) := by
  obtain ⟨s, hs, es⟩ := C24_sin_accurate x n B hB hx hn hn2
  obtain ⟨c, hc', ec⟩ := C24_cos_accurate x n B hB hx hn hn2
  have hp : (0 : ℝ) < 1 / 10 ^ n := by positivity
  have hC : Real.cos (x.val : ℝ) ≠ 0 := by
    intro h0; rw [h0, abs_zero] at hc
    have : (0 : ℝ) < 2 / 10 ^ n := by positivity
    linarith
  have h2 : (1 : ℝ) / 10 ^ n ≤ |Real.cos (x.val : ℝ)| / 2 := by
    have : (2 : ℝ) / 10 ^ n = 2 * (1 / 10 ^ n) := by ring
    linarith
  obtain ⟨q, hq, he⟩ := div_error hC es.le ec.le h2
  refine ⟨q, ?_, ?_⟩
  · unfold Bd.tan; rw [hs, hc']; exact hq
  rw [Real.tan_eq_sin_div_cos]
  refine he.trans ?_
  have h99 : (1 : ℝ) / 10 ^ 99 ≤ 1 / 10 * (1 / 10 ^ n) := by
    have h1 : (10 : ℝ) ^ n ≤ 10 ^ 98 := pow_le_pow_right₀ (by norm_num) (by omega)
    have : (1 : ℝ) / 10 ^ 98 ≤ 1 / 10 ^ n := one_div_le_one_div_of_le (by positivity) h1
    have h3 : (1 : ℝ) / 10 ^ 99 = 1 / 10 * (1 / 10 ^ 98) := by norm_num
    rw [h3]; linarith
  have h1u : (1 : ℝ) / 10 ^ n ≤ 1 := by
    rw [div_le_one (by positivity)]; exact one_le_pow₀ (by norm_num)
  have hw : (0 : ℝ) ≤ 1 / 10 ^ 99 := by positivity
  generalize (1 : ℝ) / 10 ^ n = u at *
  generalize (1 : ℝ) / 10 ^ 99 = w at *
  have hS := abs_nonneg (Real.sin (x.val : ℝ))
  have hs1 : |Real.sin (x.val : ℝ)| ≤ 1 := Real.abs_sin_le_one _
  have hc1 : |Real.cos (x.val : ℝ)| ≤ 1 := Real.abs_cos_le_one _
  rw [abs_div, ← sq_abs (Real.cos (x.val : ℝ))]
  have hCp : 0 < |Real.cos (x.val : ℝ)| := abs_pos.2 hC
  generalize |Real.sin (x.val : ℝ)| = S at *
  generalize |Real.cos (x.val : ℝ)| = C at *
  have e1 : (1 + w) * (2 * (u + S / C * u) / C) + w * (S / C) = ((1 + w) * (2 * (u * (C + S))) + w * S * C) / C ^ 2 := by
    field_simp
  rw [e1, div_mul_eq_mul_div]
  gcongr
  have a1 : u * (C + S) ≤ u * 2 := by gcongr; linarith
  have a2 : (1 + w) * (2 * (u * (C + S))) ≤ (1 + 1 / 10) * (2 * (u * 2)) := by gcongr; linarith
  have a3 : w * S * C ≤ 1 / 10 * u * 1 * 1 := by gcongr
  linarith

/-- **C65** `log` to a base whose logarithm is known to half its size. -/
theorem C65_log_accurate (ext : BdExt) (x b : Dec) (n : ℕ) (hx : 0 < x.val) (hb : 0 < b.val) (hb1 : b.val ≠ 1) (h3 : 3 ≤ n) (h97 : n ≤ 97)
    (hfx : 3 * |Real.log x.val| + 2 ≤ ext.fuel) (hfb : 3 * |Real.log b.val| + 2 ≤ ext.fuel)
    (hM : (1 + 5 * |Real.log b.val|) * (1 / 10 ^ n) ≤ |Real.log b.val| / 2) :
    ∃ d, Bd.log ext x b n = .ok (some d) ∧ |(d.val : ℝ) - Real.logb b.val x.val| ≤
      4 * ((1 + 5 * |Real.log x.val|) + |Real.logb b.val x.val| * (1 + 5 * |Real.log b.val|)) / |Real.log b.val| * (1 / 10 ^ n) := by
  obtain ⟨lx, h1, e1⟩ := C27_ln_accurate ext x n hx h3 h97 hfx
  obtain ⟨lb, h2, e2⟩ := C27_ln_accurate ext b n hb h3 h97 hfb
  have hL : Real.log (b.val : ℝ) ≠ 0 := by
    have hb' : (0 : ℝ) < b.val := by exact_mod_cast hb
    have hb1' : (b.val : ℝ) ≠ 1 := by exact_mod_cast hb1
    exact Real.log_ne_zero_of_pos_of_ne_one hb' hb1'
  obtain ⟨q, hq, he⟩ := div_error hL e1.le e2.le hM
  refine ⟨q, ?_, ?_⟩
  · unfold Bd.log; rw [h1, h2]; simp only [Res.ok_bind, hq]; rfl
  rw [← Real.log_div_log]
  refine he.trans ?_
  have hMp : 0 < |Real.log (b.val : ℝ)| := abs_pos.2 hL
  have h99 : (1 : ℝ) / 10 ^ 99 ≤ 1 / 10 * (1 / 10 ^ n) := by
    have h1 : (10 : ℝ) ^ n ≤ 10 ^ 98 := pow_le_pow_right₀ (by norm_num) (by omega)
    have : (1 : ℝ) / 10 ^ 98 ≤ 1 / 10 ^ n := one_div_le_one_div_of_le (by positivity) h1
    have h3 : (1 : ℝ) / 10 ^ 99 = 1 / 10 * (1 / 10 ^ 98) := by norm_num
    rw [h3]; linarith
  have hw0 : (0 : ℝ) ≤ 1 / 10 ^ 99 := by positivity
  have hw1 : (1 : ℝ) / 10 ^ 99 ≤ 1 / 10 := by norm_num
  have hu : (0 : ℝ) < 1 / 10 ^ n := by positivity
  rw [abs_div]
  generalize (1 : ℝ) / 10 ^ n = u at *
  generalize (1 : ℝ) / 10 ^ 99 = w at *
  have hLp := abs_nonneg (Real.log (x.val : ℝ))
  generalize |Real.log (x.val : ℝ)| = L at *
  generalize |Real.log (b.val : ℝ)| = M at *
  have hT : 0 ≤ ((1 + 5 * L) * u + L / M * ((1 + 5 * M) * u)) / M := by positivity
  have hT2 : L / M * u ≤ ((1 + 5 * L) * u + L / M * ((1 + 5 * M) * u)) / M := by
    rw [le_div_iff₀ hMp, show L / M * u * M = L * u by field_simp]
    have : 0 ≤ L / M * ((1 + 5 * M) * u) := by positivity
    nlinarith [mul_nonneg hLp hu.le]
  have hwL : w * (L / M) ≤ 1 / 10 * (L / M * u) := by
    have : 0 ≤ L / M := by positivity
    calc w * (L / M) ≤ 1 / 10 * u * (L / M) := by gcongr
      _ = _ := by ring
  set T := ((1 + 5 * L) * u + L / M * ((1 + 5 * M) * u)) / M with hTdef
  calc (1 + w) * (2 * ((1 + 5 * L) * u + L / M * ((1 + 5 * M) * u)) / M) + w * (L / M) = 2 * (1 + w) * T + w * (L / M) := by rw [hTdef]; ring
    _ ≤ 2 * (1 + 1 / 10) * T + 1 / 10 * T := by
      refine add_le_add ?_ (hwL.trans ?_)
      · gcongr
      · linarith
    _ ≤ 4 * T := by linarith
    _ = _ := by rw [hTdef]; ring

/-- **C66** `pow` is `x^y` up to the error of the logarithm, magnified by the exponential, and `10^-n`. -/
theorem C66_pow_accurate (ext : BdExt) (x y : Dec) (n B : ℕ) (hx : 0 < x.val) (hB : 1 ≤ B) (hn : B + 2 ≤ n) (hn2 : n + B ≤ 97)
    (hf : 3 * |Real.log x.val| + 2 ≤ ext.fuel)
    (hz : |(y.val : ℝ)| * (|Real.log x.val| + (1 + 5 * |Real.log x.val|) * (1 / 10 ^ n)) ≤ B) :
    ∃ d, Bd.pow ext x y n = .ok (some d) ∧ |(d.val : ℝ) - (x.val : ℝ) ^ (y.val : ℝ)| ≤
      (1 + Real.exp B * |(y.val : ℝ)| * (1 + 5 * |Real.log x.val|)) * (1 / 10 ^ n) := by
  obtain ⟨lx, h1, e1⟩ := C27_ln_accurate ext x n hx (by omega) (by omega) hf
  have hu : (0 : ℝ) < 1 / 10 ^ n := by positivity
  have hlx : |(lx.val : ℝ)| ≤ |Real.log x.val| + (1 + 5 * |Real.log x.val|) * (1 / 10 ^ n) := by
    have := abs_sub_abs_le_abs_sub (lx.val : ℝ) (Real.log x.val)
    linarith
  have hzv : |(y.val : ℝ) * lx.val| ≤ B := by
    rw [abs_mul]; exact (mul_le_mul_of_nonneg_left hlx (abs_nonneg _)).trans hz
  have hz' : |(y * lx).val| ≤ (B : ℚ) := by
    rw [val_mul]; exact_mod_cast hzv
  obtain ⟨d, hd, he⟩ := C23_exp_accurate (y * lx) n B hB hz' hn (by omega)
  refine ⟨d, ?_, ?_⟩
  · unfold Bd.pow; rw [h1]; simp only [Res.ok_bind, hd]; rfl
  have hxR : (0 : ℝ) < x.val := by exact_mod_cast hx
  rw [Real.rpow_def_of_pos hxR]
  rw [val_mul] at he
  push_cast at he
  have hyl : |(y.val : ℝ) * Real.log x.val| ≤ B := by
    rw [abs_mul]
    refine (mul_le_mul_of_nonneg_left ?_ (abs_nonneg _)).trans hz
    have : 0 ≤ (1 + 5 * |Real.log (x.val : ℝ)|) * (1 / 10 ^ n) := by positivity
    linarith
  have h4 := exp_lipschitz (abs_le.1 hzv).2 (abs_le.1 hyl).2
  have h5 : |(y.val : ℝ) * lx.val - y.val * Real.log x.val| ≤ |(y.val : ℝ)| * ((1 + 5 * |Real.log x.val|) * (1 / 10 ^ n)) := by
    rw [← mul_sub, abs_mul]; gcongr
  rw [mul_comm (Real.log _)]
  calc |(d.val : ℝ) - Real.exp (y.val * Real.log x.val)|
      ≤ |(d.val : ℝ) - Real.exp (y.val * lx.val)| + |Real.exp (y.val * lx.val) - Real.exp (y.val * Real.log x.val)| := abs_sub_le _ _ _
    _ ≤ 1 / 10 ^ n + Real.exp B * (|(y.val : ℝ)| * ((1 + 5 * |Real.log x.val|) * (1 / 10 ^ n))) := by
      refine add_le_add he.le (h4.trans ?_); gcongr
    _ = _ := by ring

/-- The hypotheses of C64, C65 and C66 hold for ordinary arguments: `tan 1`, `log_2 8`, `2^3` at ten digits. -/
example : 2 / 10 ^ 10 ≤ |Real.cos ((⟨1, 0⟩ : Dec).val : ℝ)| := by
  have h := Real.cos_one_pos
  have h2 := Real.cos_one_le
  have h3 : (1 : ℝ) / 2 ≤ Real.cos 1 := by
    have := Real.one_sub_sq_div_two_le_cos (x := 1)
    norm_num at this ⊢; linarith
  have e : ((⟨1, 0⟩ : Dec).val : ℝ) = 1 := by simp [Dec.val]
  rw [e, abs_of_pos h]
  exact le_trans (by norm_num) h3

example : 3 * |Real.log ((⟨8, 0⟩ : Dec).val : ℝ)| + 2 ≤ ((fuelExt.fuel : ℕ) : ℝ) ∧
    (1 + 5 * |Real.log ((⟨2, 0⟩ : Dec).val : ℝ)|) * (1 / 10 ^ 10) ≤ |Real.log ((⟨2, 0⟩ : Dec).val : ℝ)| / 2 := by
  have e8 : ((⟨8, 0⟩ : Dec).val : ℝ) = 2 ^ 3 := by norm_num [Dec.val]
  have e2 : ((⟨2, 0⟩ : Dec).val : ℝ) = 2 := by norm_num [Dec.val]
  have h1 := Real.log_two_gt_d9
  have h2 := Real.log_two_lt_d9
  have hp : 0 < Real.log 2 := by linarith
  have hf : fuelExt.fuel = fuelExt.fuel := rfl
  rw [e8, e2, Real.log_pow, abs_of_pos hp, abs_of_pos (by positivity)]
  constructor
  · have : (10 : ℝ) ≤ ((fuelExt.fuel : ℕ) : ℝ) := by exact_mod_cast (by decide : 10 ≤ fuelExt.fuel)
    push_cast; linarith
  · norm_num; linarith

example : |((⟨3, 0⟩ : Dec).val : ℝ)| * (|Real.log ((⟨2, 0⟩ : Dec).val : ℝ)| + (1 + 5 * |Real.log ((⟨2, 0⟩ : Dec).val : ℝ)|) * (1 / 10 ^ 10)) ≤ (3 : ℕ) := by
  have e3 : ((⟨3, 0⟩ : Dec).val : ℝ) = 3 := by norm_num [Dec.val]
  have e2 : ((⟨2, 0⟩ : Dec).val : ℝ) = 2 := by norm_num [Dec.val]
  have h1 := Real.log_two_gt_d9
  have h2 := Real.log_two_lt_d9
  have hp : 0 < Real.log 2 := by linarith
  rw [e3, e2, abs_of_pos hp, abs_of_pos (by norm_num : (0 : ℝ) < 3)]
  norm_num; linarith

end Verif

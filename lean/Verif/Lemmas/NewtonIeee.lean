import Mathlib.Data.Real.Basic
import Mathlib.Tactic.NormNum
import Mathlib.Tactic.Linarith
import Mathlib.Tactic.Positivity
import Mathlib.Tactic.FieldSimp
import Mathlib.Tactic.Ring
import Mathlib.Algebra.Order.Field.Basic

/-!
# Newton steps with rounding

Pure real arithmetic: each operation is off by `e (|value| + 1)`, where `1` stands for the scale of the argument.  The steps of `sqrt`
and `cbrt`, scaled so that the root is `1`, and that of `recip`.
-/

namespace Verif

theorem abs_quot_le {d D k K m A B : ℝ} (hm : 0 < m) (hk : m ≤ k) (hK : m ≤ K) (h1 : |d - D| ≤ A) (h2 : |k - K| ≤ B) :
    |d / k - D / K| ≤ A / m + |D| * B / m ^ 2 := by
  have hk0 : 0 < k := hm.trans_le hk
  have hK0 : 0 < K := hm.trans_le hK
  have hA : 0 ≤ A := (abs_nonneg _).trans h1
  have hB : 0 ≤ B := (abs_nonneg _).trans h2
  have e : d / k - D / K = (d - D) / k + D * (K - k) / (k * K) := by field_simp; ring
  rw [e]
  refine (abs_add_le _ _).trans (add_le_add ?_ ?_)
  · rw [abs_div, abs_of_pos hk0]
    exact div_le_div₀ hA h1 hm hk
  · rw [abs_div, abs_mul, abs_of_pos (mul_pos hk0 hK0), abs_sub_comm K k]
    refine div_le_div₀ (mul_nonneg (abs_nonneg _) hB) (mul_le_mul_of_nonneg_left h2 (abs_nonneg _)) (by positivity) ?_
    rw [sq]; exact mul_le_mul hk hK hm.le hk0.le

/-- The value a rounding error away. -/
theorem near_trans {a b c A B : ℝ} (h1 : |a - b| ≤ A) (h2 : |b - c| ≤ B) : |a - c| ≤ A + B := by
  have := abs_sub_le a b c
  linarith

theorem abs_near_le {a b A B : ℝ} (h1 : |a - b| ≤ A) (h2 : |b| ≤ B) : |a| ≤ B + A := by
  have := abs_sub_abs_le_abs_sub a b
  linarith

/-- A rounded value, bounded by `A`, whose exact value is near `c`. -/
theorem near_round {a b c ε A B : ℝ} (hε : 0 ≤ ε) (h1 : |a - b| ≤ ε * (|b| + 1)) (hA : |b| ≤ A) (h2 : |b - c| ≤ B) : |a - c| ≤ ε * (A + 1) + B :=
  near_trans (h1.trans (mul_le_mul_of_nonneg_left (by linarith) hε)) h2

set_option maxHeartbeats 400000 in
/-- One step of `cbrt` at scale `1`. -/
theorem cbrt_step_rounded {e ε r r2 r3 d k1 k2 q z : ℝ} (hε0 : 0 ≤ ε) (hε : ε ≤ 1 / 2 ^ 21) (he : |r - 1| ≤ e) (he8 : e ≤ 1 / 8)
    (h2 : |r2 - r * r| ≤ ε * (|r * r| + 1)) (h3 : |r3 - r2 * r| ≤ ε * (|r2 * r| + 1)) (hd : |d - (1 - r3)| ≤ ε * (|1 - r3| + 1))
    (hk1 : |k1 - 3 * r| ≤ ε * (|3 * r| + 1)) (hk2 : |k2 - k1 * r| ≤ ε * (|k1 * r| + 1)) (hq : |q - d / k2| ≤ ε * (|d / k2| + 1))
    (hz : |z - (r + q)| ≤ ε * (|r + q| + 1)) :
    |z - 1| ≤ 3 / 2 * e ^ 2 + 8 * ε ∧ 0 < k2 := by
  have he0 : 0 ≤ e := (abs_nonneg _).trans he
  have hr := abs_le.1 he
  have hr1 : 7 / 8 ≤ r := by linarith
  have hr2 : r ≤ 9 / 8 := by linarith
  have hrp : 0 < r := by linarith
  have hε' : ε ≤ 1 / 2000000 := hε.trans (by norm_num)
  -- r2
  have b1 : |r * r| ≤ 1266 / 1000 := by rw [abs_of_pos (by positivity)]; nlinarith
  have e1 : |r2 - r * r| ≤ 2266 / 1000 * ε := h2.trans (by nlinarith)
  -- r3
  have e2 : |r2 * r - r ^ 3| ≤ 255 / 100 * ε := by
    rw [show r2 * r - r ^ 3 = (r2 - r * r) * r by ring, abs_mul, abs_of_pos hrp]
    calc |r2 - r * r| * r ≤ 2266 / 1000 * ε * (9 / 8) := mul_le_mul e1 hr2 hrp.le (by positivity)
      _ ≤ _ := by linarith
  have b3 : |r ^ 3| ≤ 1424 / 1000 := by
    rw [abs_of_pos (by positivity)]
    calc r ^ 3 ≤ (9 / 8) ^ 3 := by gcongr
      _ ≤ _ := by norm_num
  have b2 : |r2 * r| ≤ 1425 / 1000 := (abs_near_le e2 b3).trans (by linarith)
  have e3 : |r3 - r ^ 3| ≤ 499 / 100 * ε := (near_round hε0 h3 b2 e2).trans (by linarith)
  -- d
  have b4 : |1 - r ^ 3| ≤ 4239 / 10000 := by
    have : (7 / 8 : ℝ) ^ 3 ≤ r ^ 3 := by gcongr
    have h38 : r ^ 3 ≤ (9 / 8) ^ 3 := by gcongr
    rw [abs_le]; constructor <;> linarith
  have e4 : |(1 - r3) - (1 - r ^ 3)| ≤ 499 / 100 * ε := by rw [show (1 - r3) - (1 - r ^ 3) = -(r3 - r ^ 3) by ring, abs_neg]; exact e3
  have b5 : |1 - r3| ≤ 43 / 100 := (abs_near_le e4 b4).trans (by linarith)
  have e5 : |d - (1 - r ^ 3)| ≤ 643 / 100 * ε := (near_round hε0 hd b5 e4).trans (by linarith)
  -- k2
  have e6 : |k1 - 3 * r| ≤ 4375 / 1000 * ε := hk1.trans (by rw [abs_of_pos (by positivity)]; nlinarith)
  have e7 : |k1 * r - 3 * r ^ 2| ≤ 493 / 100 * ε := by
    rw [show k1 * r - 3 * r ^ 2 = (k1 - 3 * r) * r by ring, abs_mul, abs_of_pos hrp]
    calc |k1 - 3 * r| * r ≤ 4375 / 1000 * ε * (9 / 8) := mul_le_mul e6 hr2 hrp.le (by positivity)
      _ ≤ _ := by linarith
  have b7 : |3 * r ^ 2| ≤ 3798 / 1000 := by rw [abs_of_pos (by positivity)]; nlinarith
  have b8 : |k1 * r| ≤ 38 / 10 := (abs_near_le e7 b7).trans (by linarith)
  have e8 : |k2 - 3 * r ^ 2| ≤ 974 / 100 * ε := (near_round hε0 hk2 b8 e7).trans (by linarith)
  have k8 := abs_le.1 e8
  have hK : (229 / 100 : ℝ) ≤ 3 * r ^ 2 := by nlinarith
  have hk : (229 / 100 : ℝ) ≤ k2 := by
    have : (2296 / 1000 : ℝ) ≤ 3 * r ^ 2 := by nlinarith
    linarith
  -- q
  have e9 : |d / k2 - (1 - r ^ 3) / (3 * r ^ 2)| ≤ 361 / 100 * ε + 3 / 100 * ε := by
    refine (abs_quot_le (by norm_num) hk hK e5 e8).trans ?_
    have h1 : |1 - r ^ 3| * (974 / 100 * ε) ≤ 4239 / 10000 * (974 / 100 * ε) := mul_le_mul_of_nonneg_right b4 (by positivity)
    have h2 : |1 - r ^ 3| * (974 / 100 * ε) / (229 / 100) ^ 2 ≤ 4239 / 10000 * (974 / 100 * ε) / (229 / 100) ^ 2 := by gcongr
    refine (add_le_add le_rfl h2).trans ?_
    rw [show ((229 : ℝ) / 100) ^ 2 = 52441 / 10000 by norm_num]
    linarith
  have b9 : |(1 - r ^ 3) / (3 * r ^ 2)| ≤ 186 / 1000 := by
    rw [abs_div, abs_of_pos (by positivity : 0 < 3 * r ^ 2), div_le_iff₀ (by positivity)]
    linarith
  have b10 : |d / k2| ≤ 187 / 1000 := (abs_near_le e9 b9).trans (by linarith)
  have e10 : |q - (1 - r ^ 3) / (3 * r ^ 2)| ≤ 483 / 100 * ε := (near_round hε0 hq b10 e9).trans (by linarith)
  -- z
  have hx : r + (1 - r ^ 3) / (3 * r ^ 2) - 1 = (r - 1) ^ 2 * (2 * r + 1) / (3 * r ^ 2) := by field_simp; ring
  have hb : |r + (1 - r ^ 3) / (3 * r ^ 2) - 1| ≤ 3 / 2 * e ^ 2 := by
    rw [hx, abs_of_nonneg (by positivity), div_le_iff₀ (by positivity)]
    have h1 : (r - 1) ^ 2 ≤ e ^ 2 := by rw [← sq_abs]; gcongr
    have h2 : 2 * r + 1 ≤ 3 / 2 * (3 * r ^ 2) := by nlinarith
    calc (r - 1) ^ 2 * (2 * r + 1) ≤ e ^ 2 * (3 / 2 * (3 * r ^ 2)) := mul_le_mul h1 h2 (by positivity) (by positivity)
      _ = _ := by ring
  have he2 : 3 / 2 * e ^ 2 ≤ 3 / 2 * (1 / 8) ^ 2 := by gcongr
  have e11 : |r + q - (r + (1 - r ^ 3) / (3 * r ^ 2))| ≤ 483 / 100 * ε := by rw [add_sub_add_left_eq_sub]; exact e10
  have b11 : |r + q| ≤ 103 / 100 := by
    have h1 := abs_le.1 e11
    have h2 := abs_le.1 hb
    rw [abs_le]; constructor <;> linarith
  have e12 := near_trans (hz.trans (mul_le_mul_of_nonneg_left (by linarith : |r + q| + 1 ≤ 203 / 100) hε0)) e11
  have h1 := abs_le.1 e12
  have h2 := abs_le.1 hb
  refine ⟨?_, by linarith⟩
  rw [abs_le]; constructor <;> linarith

/-- One step of `sqrt` at scale `1`. -/
theorem sqrt_step_rounded {ε r p d k q z : ℝ} (hε0 : 0 ≤ ε) (hε : ε ≤ 1 / 2 ^ 21) (hr1 : 85 / 100 ≤ r) (hr2 : r ≤ 107 / 100)
    (hp : |p - r * r| ≤ ε * (|r * r| + 1)) (hd : |d - (1 - p)| ≤ ε * (|1 - p| + 1))
    (hk : |k - 2 * r| ≤ ε * (|2 * r| + 1)) (hq : |q - d / k| ≤ ε * (|d / k| + 1)) (hz : |z - (r + q)| ≤ ε * (|r + q| + 1)) :
    |z - 1 - (r - 1) ^ 2 / (2 * r)| ≤ 7 * ε ∧ 0 < k := by
  have hrp : 0 < r := by linarith
  have hε' : ε ≤ 1 / 2000000 := hε.trans (by norm_num)
  have b1 : |r * r| ≤ 1145 / 1000 := by rw [abs_of_pos (by positivity)]; nlinarith
  have e1 : |p - r * r| ≤ 215 / 100 * ε := hp.trans (by nlinarith)
  have b2 : |1 - r * r| ≤ 278 / 1000 := by rw [abs_le]; constructor <;> nlinarith
  have e2 : |(1 - p) - (1 - r * r)| ≤ 215 / 100 * ε := by rw [show (1 - p) - (1 - r * r) = -(p - r * r) by ring, abs_neg]; exact e1
  have b3 : |1 - p| ≤ 279 / 1000 := (abs_near_le e2 b2).trans (by linarith)
  have e3 : |d - (1 - r * r)| ≤ 343 / 100 * ε := (near_round hε0 hd b3 e2).trans (by linarith)
  have e4 : |k - 2 * r| ≤ 315 / 100 * ε := hk.trans (by rw [abs_of_pos (by positivity)]; nlinarith)
  have k4 := abs_le.1 e4
  have hK : (169 / 100 : ℝ) ≤ 2 * r := by linarith
  have hk' : (169 / 100 : ℝ) ≤ k := by linarith
  have e5 : |d / k - (1 - r * r) / (2 * r)| ≤ 24 / 10 * ε := by
    refine (abs_quot_le (by norm_num) hk' hK e3 e4).trans ?_
    have h1 : |1 - r * r| * (315 / 100 * ε) / (169 / 100) ^ 2 ≤ 278 / 1000 * (315 / 100 * ε) / (169 / 100) ^ 2 := by gcongr
    refine (add_le_add le_rfl h1).trans ?_
    rw [show ((169 : ℝ) / 100) ^ 2 = 28561 / 10000 by norm_num]
    linarith
  have b5 : |(1 - r * r) / (2 * r)| ≤ 165 / 1000 := by
    rw [abs_div, abs_of_pos (by positivity : 0 < 2 * r), div_le_iff₀ (by positivity)]
    linarith
  have b6 : |d / k| ≤ 166 / 1000 := (abs_near_le e5 b5).trans (by linarith)
  have e6 : |q - (1 - r * r) / (2 * r)| ≤ 36 / 10 * ε := (near_round hε0 hq b6 e5).trans (by linarith)
  have hx : r + (1 - r * r) / (2 * r) - 1 = (r - 1) ^ 2 / (2 * r) := by field_simp; ring
  have e7 : |r + q - (r + (1 - r * r) / (2 * r))| ≤ 36 / 10 * ε := by rw [add_sub_add_left_eq_sub]; exact e6
  have b7 : |r + q| ≤ 124 / 100 := by
    have h1 := abs_le.1 e6
    have h2 := abs_le.1 b5
    rw [abs_le]; constructor <;> linarith
  have e8 := near_trans (hz.trans (mul_le_mul_of_nonneg_left (by linarith : |r + q| + 1 ≤ 224 / 100) hε0)) e7
  refine ⟨?_, by linarith⟩
  rw [← hx, show z - 1 - (r + (1 - r * r) / (2 * r) - 1) = z - (r + (1 - r * r) / (2 * r)) by ring]
  linarith

/-- One step of `recip`: `u = x r` comes from the estimate, `v = x z` from the result. -/
theorem recip_step_rounded {e ε u u' w : ℝ} (hε0 : 0 ≤ ε) (hε : ε ≤ 1 / 2 ^ 21) (he : |1 - u| ≤ e) (he1 : e ≤ 97 / 100)
    (hu : |u' - u| ≤ ε * (|u| + 1 / 2 ^ 20)) (hw : |w - (2 - u')| ≤ ε * (|2 - u'| + 1 / 2 ^ 20)) :
    |u * w| ≤ 10001 / 10000 ∧ ∀ v, |v - u * w| ≤ ε * (|u * w| + 1 / 2 ^ 20) → |1 - v| ≤ e ^ 2 + 6 * ε := by
  have he0 : 0 ≤ e := (abs_nonneg _).trans he
  have hu1 := abs_le.1 he
  have hε' : ε ≤ 1 / 2000000 := hε.trans (by norm_num)
  have hup : 0 < u := by linarith
  have hu2 : u ≤ 197 / 100 := by linarith
  rw [abs_of_pos hup] at hu
  have e1 : |u' - u| ≤ ε * (u + 1 / 2 ^ 20) := hu
  have e2 : |(2 - u') - (2 - u)| ≤ ε * (u + 1 / 2 ^ 20) := by rw [show (2 - u') - (2 - u) = -(u' - u) by ring, abs_neg]; exact e1
  have h2u : |2 - u| = 2 - u := abs_of_pos (by linarith)
  have b2 : |2 - u'| ≤ 2 - u + ε * (u + 1 / 2 ^ 20) := abs_near_le e2 h2u.le
  have e3 : |w - (2 - u)| ≤ ε * (2 - u + ε * (u + 1 / 2 ^ 20) + 1 / 2 ^ 20) + ε * (u + 1 / 2 ^ 20) :=
    near_trans (hw.trans (mul_le_mul_of_nonneg_left (by linarith) hε0)) e2
  have e3' : |w - (2 - u)| ≤ 20001 / 10000 * ε := e3.trans (by
    have : ε * (u + 1 / 2 ^ 20) ≤ 1 / 2000000 * (2 + 1 / 2 ^ 20) := mul_le_mul hε' (by linarith) (by positivity) (by norm_num)
    have h1 : ε * (2 - u + ε * (u + 1 / 2 ^ 20) + 1 / 2 ^ 20) ≤ ε * (2 - u + 1 / 2000000 * (2 + 1 / 2 ^ 20) + 1 / 2 ^ 20) := mul_le_mul_of_nonneg_left (by linarith) hε0
    norm_num at *
    nlinarith)
  have e4 : |u * w - u * (2 - u)| ≤ 3941 / 1000 * ε := by
    rw [← mul_sub, abs_mul, abs_of_pos hup]
    calc u * |w - (2 - u)| ≤ 197 / 100 * (20001 / 10000 * ε) := mul_le_mul hu2 e3' (abs_nonneg _) (by norm_num)
      _ ≤ _ := by linarith
  have b4 : |u * (2 - u)| ≤ 1 := by rw [abs_of_pos (mul_pos hup (by linarith))]; nlinarith [sq_nonneg (u - 1)]
  have b5 : |u * w| ≤ 10001 / 10000 := (abs_near_le e4 b4).trans (by linarith)
  refine ⟨b5, fun v hv => ?_⟩
  have e5 := near_trans (hv.trans (mul_le_mul_of_nonneg_left (by linarith : |u * w| + 1 / 2 ^ 20 ≤ 1001 / 1000) hε0)) e4
  have hx : 1 - v = (1 - u) ^ 2 - (v - u * (2 - u)) := by ring
  have h1 : (1 - u) ^ 2 ≤ e ^ 2 := by rw [← sq_abs]; gcongr
  have h0 := sq_nonneg (1 - u)
  have h2 := abs_le.1 e5
  rw [hx, abs_le]
  constructor
  · nlinarith
  · linarith

end Verif

import Verif.Lemmas.SharpSeries

/-!
# The tangent with its poles cancelled

The quotient of the power series of `sin (π x) (x² - 1/4)` and `cos (π x)` is found by long division over the integers.  That it is close to the
tangent is read off the product with the divisor.
-/

namespace Verif

open Polynomial

def zMul : List ℤ → List ℤ → List ℤ
  | [], _ => []
  | a :: l, m => zAdd (zScale a m) (0 :: zMul l m)

theorem zPoly_mul (l m : List ℤ) : zPoly (zMul l m) = zPoly l * zPoly m := by
  induction l with
  | nil => simp [zMul, zPoly]
  | cons a l ih =>
    simp only [zMul, zPoly_add, zPoly_scale, zPoly, ih, Int.cast_zero, map_zero, zero_add]
    ring

/-- The first terms of the quotient of two power series. -/
def zQuot : ℕ → List ℤ → List ℤ → List ℤ
  | 0, _, _ => []
  | J + 1, n, d => n.headD 0 / d.headD 1 :: zQuot J (zAdd n (zScale (-(n.headD 0 / d.headD 1)) d)).tail d

theorem zPoly_le_zAbs (l : List ℤ) {x : ℝ} (hx : |x| ≤ 1) : |(zPoly l).eval x| ≤ zAbs 1 l := by
  induction l with
  | nil => simp [zPoly, zAbs]
  | cons a l ih =>
    simp only [zPoly, zAbs, eval_add, eval_mul, eval_C, eval_X]
    push_cast
    refine (abs_add_le _ _).trans ?_
    rw [abs_mul]
    have h2 : |x| * |(zPoly l).eval x| ≤ 1 * |(zPoly l).eval x| := mul_le_mul_of_nonneg_right hx (abs_nonneg _)
    linarith

def sinList : List ℤ := floorList 320 sinTerm 120 0

def cosList : List ℤ := floorList 320 cosTerm 120 0

/-- `sin (π x) (x² - 1/4)` in powers of `2 x`, over `2 ^ 482`. -/
def tanNum : List ℤ := zScale (2 ^ 160) (zMul [-1, 0, 1] sinList)

/-- `tan (π x) (x² - 1/4)` in powers of `2 x`, over `2 ^ 160`. -/
def tanList : List ℤ := zQuot 80 tanNum (zScale 4 cosList)

def tanResidual (l : List ℤ) : List ℤ := zAdd tanNum (zScale (-4) (zMul l cosList))

theorem tanResidual_small : zAbs 1 (tanResidual tanList) / (4 * 2 ^ 480) ≤ 5 / 10 ^ 39 := by decide +kernel

theorem tanList_small : zAbs 1 tanList / 2 ^ 160 ≤ 1 / 2 := by decide +kernel

theorem tan_cut {x : ℝ} (hx : |x| ≤ 499999 / 10 ^ 6) :
    |Real.tan (Real.pi * x) * (x ^ 2 - 1 / 4) - (zPoly tanList).eval (2 * x) / 2 ^ 160| ≤ 4 / 10 ^ 28 := by
  have hx1 : |x| ≤ 1 := hx.trans (by norm_num)
  have hx2 : |2 * x| ≤ 1 := by rw [abs_mul, abs_two]; norm_num at hx; linarith
  have hs := (sin_cut 320 60 hx1).trans ((Rat.cast_le (K := ℝ)).2 (by decide +kernel : (1 / 10 ^ 59 + 734 * (1 / 4) ^ 60 + 2 ^ (2 * 60) / 2 ^ 320 : ℚ) ≤ 6 / 10 ^ 34))
  have hc := (cos_cut 320 60 hx1).trans ((Rat.cast_le (K := ℝ)).2 (by decide +kernel : (1 / 10 ^ 59 + 1467 * (1 / 4) ^ 60 + 2 ^ (2 * 60) / 2 ^ 320 : ℚ) ≤ 12 / 10 ^ 34))
  have hR := div_le_div_of_nonneg_right (zPoly_le_zAbs (tanResidual tanList) hx2) (by positivity : (0 : ℝ) ≤ 4 * 2 ^ 480)
  have hG := div_le_div_of_nonneg_right (zPoly_le_zAbs tanList hx2) (by positivity : (0 : ℝ) ≤ 2 ^ 160)
  have hR' := (Rat.cast_le (K := ℝ)).2 tanResidual_small
  have hG' := (Rat.cast_le (K := ℝ)).2 tanList_small
  push_cast at hR' hG'
  replace hR := hR.trans hR'
  replace hG := hG.trans hG'
  change |Real.sin (Real.pi * x) - (zPoly sinList).eval (2 * x) / 2 ^ 320| ≤ _ at hs
  change |Real.cos (Real.pi * x) - (zPoly cosList).eval (2 * x) / 2 ^ 320| ≤ _ at hc
  rw [tanResidual, tanNum, zPoly_add, zPoly_scale, zPoly_scale, zPoly_mul, zPoly_mul] at hR
  simp only [zPoly, eval_add, eval_mul, eval_C, eval_X, mul_zero, add_zero] at hR
  push_cast at hs hc hR hG
  set S := (zPoly sinList).eval (2 * x)
  set K := (zPoly cosList).eval (2 * x)
  set G := (zPoly tanList).eval (2 * x)
  have hcos : 2 / 10 ^ 6 ≤ Real.cos (Real.pi * x) := by
    have h1 := Real.one_sub_mul_le_cos (x := Real.pi * |x|) (by positivity) (by norm_num at hx; nlinarith [Real.pi_pos])
    rw [show Real.pi * |x| = |Real.pi * x| by rw [abs_mul, abs_of_pos Real.pi_pos], Real.cos_abs, abs_mul, abs_of_pos Real.pi_pos,
      show 1 - 2 / Real.pi * (Real.pi * |x|) = 1 - 2 * |x| by have := Real.pi_ne_zero; field_simp] at h1
    norm_num at hx ⊢
    linarith
  have hcos0 : 0 < Real.cos (Real.pi * x) := lt_of_lt_of_le (by norm_num) hcos
  have e : Real.tan (Real.pi * x) * (x ^ 2 - 1 / 4) - G / 2 ^ 160 =
      (Real.sin (Real.pi * x) * (x ^ 2 - 1 / 4) - G / 2 ^ 160 * Real.cos (Real.pi * x)) / Real.cos (Real.pi * x) := by
    rw [Real.tan_eq_sin_div_cos]; field_simp
  rw [e, abs_div, abs_of_pos hcos0, div_le_iff₀ hcos0]
  have h3 : |S / 2 ^ 320 * (x ^ 2 - 1 / 4) - G / 2 ^ 160 * (K / 2 ^ 320)| ≤ 5 / 10 ^ 39 := by
    refine le_trans (le_of_eq ?_) hR
    rw [← abs_of_pos (by positivity : (0 : ℝ) < 4 * 2 ^ 480), ← abs_div]
    congr 1
    rw [show (2 : ℝ) ^ 480 = 2 ^ 160 * 2 ^ 320 by rw [← pow_add], show (1461501637330902918203684832716283019655932542976 : ℝ) = 2 ^ 160 by norm_num]
    have h1 : (2 : ℝ) ^ 160 ≠ 0 := by positivity
    have h2 : (2 : ℝ) ^ 320 ≠ 0 := by positivity
    generalize (2 : ℝ) ^ 160 = a at h1
    generalize (2 : ℝ) ^ 320 = b at h2
    field_simp
    ring
  have h4 : |(Real.sin (Real.pi * x) - S / 2 ^ 320) * (x ^ 2 - 1 / 4)| ≤ 6 / 10 ^ 34 * (1 / 4) := by
    rw [abs_mul]
    refine mul_le_mul hs ?_ (abs_nonneg _) (by positivity)
    rw [abs_le] at hx ⊢
    norm_num at hx
    constructor <;> nlinarith [hx.1, hx.2]
  have h5 : |G / 2 ^ 160 * (Real.cos (Real.pi * x) - K / 2 ^ 320)| ≤ 1 / 2 * (12 / 10 ^ 34) := by
    rw [abs_mul, abs_div, abs_of_pos (by positivity : (0 : ℝ) < 2 ^ 160)]
    exact mul_le_mul hG hc (abs_nonneg _) (by positivity)
  have h6 : (8 : ℝ) / 10 ^ 34 ≤ 4 / 10 ^ 28 * Real.cos (Real.pi * x) := by
    have : (4 : ℝ) / 10 ^ 28 * (2 / 10 ^ 6) ≤ 4 / 10 ^ 28 * Real.cos (Real.pi * x) := mul_le_mul_of_nonneg_left hcos (by positivity)
    norm_num at this ⊢
    linarith
  rw [show Real.sin (Real.pi * x) * (x ^ 2 - 1 / 4) - G / 2 ^ 160 * Real.cos (Real.pi * x) =
    S / 2 ^ 320 * (x ^ 2 - 1 / 4) - G / 2 ^ 160 * (K / 2 ^ 320) + (Real.sin (Real.pi * x) - S / 2 ^ 320) * (x ^ 2 - 1 / 4) -
      G / 2 ^ 160 * (Real.cos (Real.pi * x) - K / 2 ^ 320) by ring]
  rw [abs_le] at *
  constructor <;> linarith [h3.1, h3.2, h4.1, h4.2, h5.1, h5.2]

/-- The terms in powers of `y` where `x = 0.499999 y`. -/
def tanTerm (m : ℕ) : ℚ := zAt tanList m * (499999 / 500000) ^ m / 2 ^ 160

theorem zPoly_sum (l : List ℤ) (x : ℝ) : (zPoly l).eval x = ∑ k ∈ Finset.range l.length, (zAt l k : ℝ) * x ^ k := by
  induction l with
  | nil => simp [zPoly]
  | cons a l ih =>
    rw [List.length_cons, Finset.sum_range_succ', zPoly, eval_add, eval_mul, eval_C, eval_X, ih, Finset.mul_sum, add_comm]
    congr 1
    · refine Finset.sum_congr rfl fun k _ => ?_
      rw [pow_succ]
      change _ = (zAt l k : ℝ) * _
      ring
    · simp [zAt]

theorem zQuot_length (J : ℕ) (n d : List ℤ) : (zQuot J n d).length = J := by
  induction J generalizing n with
  | zero => rfl
  | succ J ih => rw [zQuot, List.length_cons, ih]

theorem tan_cut_unit {y : ℝ} (hy : |y| ≤ 1) :
    |Real.tan (Real.pi * (499999 / 10 ^ 6 * y)) * ((499999 / 10 ^ 6 * y) ^ 2 - 1 / 4) - (zPoly (floorList 320 tanTerm 80 0)).eval (2 * y) / 2 ^ 320| ≤ 5 / 10 ^ 28 := by
  have h1 := tan_cut (x := 499999 / 10 ^ 6 * y) (by rw [abs_mul, abs_of_pos (by norm_num)]; nlinarith [abs_nonneg y])
  have h2 := zPoly_floorList_zero 320 tanTerm 80 hy
  rw [zPoly_sum, show tanList.length = 80 from zQuot_length _ _ _] at h1
  have e : (∑ k ∈ Finset.range 80, (zAt tanList k : ℝ) * (2 * (499999 / 10 ^ 6 * y)) ^ k) / 2 ^ 160 = ∑ i ∈ Finset.range 80, (tanTerm i : ℝ) * y ^ i := by
    rw [Finset.sum_div]
    refine Finset.sum_congr rfl fun k _ => ?_
    rw [tanTerm]
    push_cast
    rw [show 2 * (499999 / 10 ^ 6 * y) = 499999 / 500000 * y by ring, mul_pow]
    ring
  rw [e] at h1
  have h3 : (2 : ℝ) ^ 80 / 2 ^ 320 ≤ 1 / 10 ^ 28 := by
    rw [show (2 : ℝ) ^ 320 = 2 ^ 80 * 2 ^ 240 by rw [← pow_add], div_mul_eq_div_div, div_self (by positivity)]
    norm_num
  rw [abs_le] at *
  constructor <;> linarith [h1.1, h1.2, h2.1, h2.2]

end Verif

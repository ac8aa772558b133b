import Verif.Lemmas.ChebList
import Verif.Lemmas.ArcsinSeries
import Verif.Lemmas.NearTargets
import Verif.Lemmas.Pi

/-!
# Power series cut off and rounded to integers
-/

namespace Verif

open Polynomial

/-- The terms `b m`, as integers over `2 ^ s` in powers of `2 y`; `m` is the power of the head. -/
def floorList (s : ℕ) (b : ℕ → ℚ) : ℕ → ℕ → List ℤ
  | 0, _ => []
  | J + 1, m => (b m * 2 ^ s / 2 ^ m).floor :: floorList s b J (m + 1)

theorem zPoly_floorList (s : ℕ) (b : ℕ → ℚ) (J m : ℕ) {y : ℝ} (hy : |y| ≤ 1) :
    |(2 * y) ^ m * (zPoly (floorList s b J m)).eval (2 * y) / 2 ^ s - ∑ i ∈ Finset.range J, (b (m + i) : ℝ) * y ^ (m + i)| ≤ (2 ^ (m + J) - 2 ^ m) / 2 ^ s := by
  induction J generalizing m with
  | zero => simp [floorList, zPoly]
  | succ J ih =>
    have h := ih (m + 1)
    have e1 : (b m * 2 ^ s / 2 ^ m).floor = ⌊b m * 2 ^ s / 2 ^ m⌋ := rfl
    have h1 := Int.floor_le (b m * 2 ^ s / 2 ^ m)
    have h2 := (Int.lt_floor_add_one (b m * 2 ^ s / 2 ^ m)).le
    rw [← e1] at h1 h2
    set z := (b m * 2 ^ s / 2 ^ m).floor with hz
    have h1' := (Rat.cast_le (K := ℝ)).2 h1
    have h2' := (Rat.cast_le (K := ℝ)).2 h2
    push_cast at h1' h2'
    have hs : (0 : ℝ) < 2 ^ s := by positivity
    have hm : (0 : ℝ) < 2 ^ m := by positivity
    rw [le_div_iff₀ hm] at h1'
    rw [div_le_iff₀ hm] at h2'
    have h3 : |(z : ℝ) * 2 ^ m / 2 ^ s - b m| ≤ 2 ^ m / 2 ^ s := by
      have : (z : ℝ) * 2 ^ m / 2 ^ s - b m = ((z : ℝ) * 2 ^ m - b m * 2 ^ s) / 2 ^ s := by field_simp
      rw [this, abs_div, abs_of_pos hs]
      gcongr
      rw [abs_le]; constructor <;> linarith
    have h4 : |((z : ℝ) * 2 ^ m / 2 ^ s - b m) * y ^ m| ≤ 2 ^ m / 2 ^ s := by
      rw [abs_mul, abs_pow]
      have : |y| ^ m ≤ 1 := pow_le_one₀ (abs_nonneg _) hy
      calc _ ≤ (2 : ℝ) ^ m / 2 ^ s * 1 := mul_le_mul h3 this (by positivity) (by positivity)
        _ = _ := mul_one _
    rw [Finset.sum_range_succ']
    have e2 : ∑ i ∈ Finset.range J, (b (m + (i + 1)) : ℝ) * y ^ (m + (i + 1)) = ∑ i ∈ Finset.range J, (b (m + 1 + i) : ℝ) * y ^ (m + 1 + i) :=
      Finset.sum_congr rfl fun i _ => by rw [show m + (i + 1) = m + 1 + i by ring]
    rw [e2, floorList, zPoly, eval_add, eval_mul, eval_C, eval_X, ← hz]
    simp only [Nat.add_zero]
    have e3 : (2 * y) ^ m * ((z : ℝ) + 2 * y * (zPoly (floorList s b J (m + 1))).eval (2 * y)) / 2 ^ s -
        (∑ i ∈ Finset.range J, (b (m + 1 + i) : ℝ) * y ^ (m + 1 + i) + b m * y ^ m) =
        ((z : ℝ) * 2 ^ m / 2 ^ s - b m) * y ^ m +
          ((2 * y) ^ (m + 1) * (zPoly (floorList s b J (m + 1))).eval (2 * y) / 2 ^ s - ∑ i ∈ Finset.range J, (b (m + 1 + i) : ℝ) * y ^ (m + 1 + i)) := by
      rw [pow_succ, mul_pow]; ring
    rw [e3]
    refine (abs_add_le _ _).trans ((add_le_add h4 h).trans (le_of_eq ?_))
    rw [← add_div, show m + 1 + J = m + (J + 1) by ring, pow_succ 2 m]
    ring

theorem zPoly_floorList_zero (s : ℕ) (b : ℕ → ℚ) (J : ℕ) {y : ℝ} (hy : |y| ≤ 1) :
    |(zPoly (floorList s b J 0)).eval (2 * y) / 2 ^ s - ∑ i ∈ Finset.range J, (b i : ℝ) * y ^ i| ≤ 2 ^ J / 2 ^ s := by
  have := zPoly_floorList s b J 0 hy
  simp only [pow_zero, one_mul, Nat.zero_add] at this
  refine this.trans ?_
  gcongr
  linarith

/-- The odd terms of a series. -/
theorem sum_odd_terms (c : ℕ → ℝ) (x : ℝ) (J : ℕ) :
    ∑ i ∈ Finset.range (2 * J), (if i % 2 = 1 then c (i / 2) else 0) * x ^ i = ∑ j ∈ Finset.range J, c j * x ^ (2 * j + 1) := by
  induction J with
  | zero => simp
  | succ J ih =>
    rw [show 2 * (J + 1) = 2 * J + 1 + 1 by ring, Finset.sum_range_succ, Finset.sum_range_succ, ih, Finset.sum_range_succ,
      if_neg (by omega), if_pos (by omega), show (2 * J + 1) / 2 = J by omega]
    ring

theorem odd_series_tail (c : ℕ → ℝ) (hc : ∀ j, |c j| ≤ 1) {x w f : ℝ} (hw : 0 ≤ w) (hw1 : w < 1) (hx : |x| ≤ w) (hf : HasSum (fun j => c j * x ^ (2 * j + 1)) f) (J : ℕ) :
    |f - ∑ j ∈ Finset.range J, c j * x ^ (2 * j + 1)| ≤ w ^ (2 * J + 1) / (1 - w ^ 2) := by
  have h1 := (hasSum_nat_add_iff' J).2 hf
  have hw2 : w ^ 2 < 1 := by nlinarith
  have h2 : HasSum (fun j => w ^ (2 * J + 1) * (w ^ 2) ^ j) (w ^ (2 * J + 1) * (1 - w ^ 2)⁻¹) := (hasSum_geometric_of_lt_one (by positivity) hw2).mul_left _
  rw [← h1.tsum_eq, ← Real.norm_eq_abs, div_eq_mul_inv]
  refine tsum_of_norm_bounded h2 fun j => ?_
  rw [Real.norm_eq_abs, abs_mul, abs_pow]
  calc |c (j + J)| * |x| ^ (2 * (j + J) + 1) ≤ 1 * w ^ (2 * (j + J) + 1) := mul_le_mul (hc _) (pow_le_pow_left₀ (abs_nonneg _) hx _) (by positivity) zero_le_one
    _ = _ := by rw [one_mul, ← pow_mul, ← pow_add]; congr 1; ring

/-! ## The inverse sine -/

def isqrtQ : ℕ → ℚ
  | 0 => 1
  | j + 1 => isqrtQ j * (2 * j + 1) / (2 * j + 2)

theorem isqrtCoeff_eq (j : ℕ) : isqrtCoeff j = isqrtQ j := by
  have key : ∀ j, (j.factorial : ℝ) * isqrtCoeff j = (ascPochhammer ℝ j).eval (1 / 2 : ℝ) := by
    intro j
    have h := Ring.factorial_nsmul_multichoose_eq_ascPochhammer (1 / 2 : ℝ) j
    rw [Polynomial.ascPochhammer_smeval_eq_eval, Ring.multichoose_eq, nsmul_eq_mul] at h
    exact h
  induction j with
  | zero =>
    have := key 0
    simpa [isqrtQ] using this
  | succ j ih =>
    have h1 := key (j + 1)
    rw [ascPochhammer_succ_eval, ← key j, Nat.factorial_succ] at h1
    have hf : (0 : ℝ) < j.factorial := by exact_mod_cast j.factorial_pos
    rw [isqrtQ]
    push_cast at h1 ⊢
    rw [← ih]
    have h2 : ((j : ℝ) + 1) * isqrtCoeff (j + 1) = isqrtCoeff j * (1 / 2 + j) := by
      have : (j.factorial : ℝ) * (((j : ℝ) + 1) * isqrtCoeff (j + 1)) = j.factorial * (isqrtCoeff j * (1 / 2 + j)) := by linarith
      exact mul_left_cancel₀ hf.ne' this
    rw [eq_div_iff (by positivity)]
    linarith

theorem isqrtQ_pos (j : ℕ) : 0 < isqrtQ j := by
  induction j with
  | zero => simp [isqrtQ]
  | succ j ih => rw [isqrtQ]; positivity

theorem isqrtQ_le (j : ℕ) : isqrtQ j ≤ 1 := by
  induction j with
  | zero => simp [isqrtQ]
  | succ j ih =>
    have := isqrtQ_pos j
    rw [isqrtQ, div_le_one (by positivity)]
    nlinarith

/-- The terms of the inverse sine on `[-w, w]`. -/
def asinTerm (w : ℚ) (m : ℕ) : ℚ := if m % 2 = 1 then isqrtQ (m / 2) / (2 * (m / 2 : ℕ) + 1) * w ^ m else 0

theorem asin_cut {w : ℚ} (hw : 0 ≤ w) (hw1 : w < 1) (s J : ℕ) {y : ℝ} (hy : |y| ≤ 1) :
    |Real.arcsin (w * y) - (zPoly (floorList s (asinTerm w) (2 * J) 0)).eval (2 * y) / 2 ^ s| ≤ (w ^ (2 * J + 1) / (1 - w ^ 2) + 2 ^ (2 * J) / 2 ^ s : ℚ) := by
  have hw' : (0 : ℝ) ≤ w := by exact_mod_cast hw
  have hw1' : (w : ℝ) < 1 := by exact_mod_cast hw1
  have hx : |(w : ℝ) * y| ≤ w := by rw [abs_mul, abs_of_nonneg hw']; nlinarith [abs_nonneg y]
  have h1 := odd_series_tail (fun j => isqrtCoeff j / (2 * j + 1)) (fun j => by
    have h0 := isqrtQ_pos j
    have h1 := isqrtQ_le j
    have h0' : (0 : ℝ) < isqrtQ j := by exact_mod_cast h0
    have h1' : (isqrtQ j : ℝ) ≤ 1 := by exact_mod_cast h1
    show |isqrtCoeff j / (2 * j + 1)| ≤ 1
    rw [isqrtCoeff_eq, abs_of_nonneg (by positivity), div_le_one (by positivity)]
    have : (0 : ℝ) ≤ j := by positivity
    linarith) hw' hw1' hx (hasSum_arcsin (hx.trans_lt hw1')) J
  have h2 := zPoly_floorList_zero s (asinTerm w) (2 * J) hy
  have e : ∑ i ∈ Finset.range (2 * J), (asinTerm w i : ℝ) * y ^ i = ∑ j ∈ Finset.range J, isqrtCoeff j / (2 * j + 1) * (w * y) ^ (2 * j + 1) := by
    rw [← sum_odd_terms]
    refine Finset.sum_congr rfl fun i _ => ?_
    rw [asinTerm]
    split_ifs with h
    · rw [isqrtCoeff_eq]; push_cast; ring
    · simp
  rw [e] at h2
  push_cast
  rw [abs_le] at h1 h2 ⊢
  constructor <;> linarith [h1.1, h1.2, h2.1, h2.2]

/-! ## The logarithm, the sine and the cosine -/

theorem series_tail {t : ℕ → ℝ} {B θ f : ℝ} (h0 : 0 ≤ θ) (h1 : θ < 1) (ht : ∀ j, |t j| ≤ B * θ ^ j) (hf : HasSum t f) (J : ℕ) :
    |f - ∑ j ∈ Finset.range J, t j| ≤ B * θ ^ J / (1 - θ) := by
  have h2 := (hasSum_nat_add_iff' J).2 hf
  have h3 : HasSum (fun j => B * θ ^ J * θ ^ j) (B * θ ^ J * (1 - θ)⁻¹) := (hasSum_geometric_of_lt_one h0 h1).mul_left _
  rw [← h2.tsum_eq, ← Real.norm_eq_abs, div_eq_mul_inv]
  refine tsum_of_norm_bounded h3 fun j => ?_
  rw [Real.norm_eq_abs, mul_assoc, ← pow_add, add_comm J j]
  exact ht _

/-- The terms of `log (1 + y / 3)`. -/
def logTerm (m : ℕ) : ℚ := if m = 0 then 0 else -(-1 / 3) ^ m / m

theorem log_cut (s J : ℕ) {y : ℝ} (hy : |y| ≤ 1) :
    |Real.log (1 + y / 3) - (zPoly (floorList s logTerm (J + 1) 0)).eval (2 * y) / 2 ^ s| ≤ (1 / 2 * (1 / 3) ^ J + 2 ^ (J + 1) / 2 ^ s : ℚ) := by
  have hx : |-(y / 3)| ≤ 1 / 3 := by rw [abs_neg, abs_div, abs_of_pos (by norm_num : (0 : ℝ) < 3)]; linarith
  have h1 := series_tail (t := fun j : ℕ => (-(y / 3)) ^ (j + 1) / ((j : ℝ) + 1)) (B := 1 / 3) (θ := 1 / 3) (by norm_num) (by norm_num) (fun j => by
    rw [abs_div, abs_pow, abs_of_pos (by positivity : (0 : ℝ) < (j : ℝ) + 1), ← pow_succ']
    refine (div_le_self (by positivity) ?_).trans (pow_le_pow_left₀ (abs_nonneg _) hx _)
    have : (0 : ℝ) ≤ j := by positivity
    linarith) (Real.hasSum_pow_div_log_of_abs_lt_one (hx.trans_lt (by norm_num))) J
  rw [show (1 : ℝ) - -(y / 3) = 1 + y / 3 by ring] at h1
  have h2 := zPoly_floorList_zero s logTerm (J + 1) hy
  have e : ∑ i ∈ Finset.range (J + 1), (logTerm i : ℝ) * y ^ i = -∑ j ∈ Finset.range J, (-(y / 3)) ^ (j + 1) / ((j : ℝ) + 1) := by
    rw [Finset.sum_range_succ', ← Finset.sum_neg_distrib]
    simp only [logTerm, if_true, Rat.cast_zero, zero_mul, add_zero]
    refine Finset.sum_congr rfl fun j _ => ?_
    rw [if_neg (by omega)]
    push_cast
    rw [show -(y / 3) = -1 / 3 * y by ring, mul_pow]
    ring
  rw [e] at h2
  push_cast
  have e3 : 1 / 3 * (1 / 3 : ℝ) ^ J / (1 - 1 / 3) = 1 / 2 * (1 / 3) ^ J := by ring
  rw [e3] at h1
  rw [abs_le] at h1 h2 ⊢
  constructor <;> linarith [h1.1, h1.2, h2.1, h2.2]

/-- 60 digits of `π`. -/
def piQ : ℚ := 3141592653589793238462643383279502884197169399375105820974944 / 10 ^ 60

theorem piQ_close : |Real.pi - (piQ : ℝ)| ≤ 1 / 10 ^ 59 := by
  have h1 := Bd.pi_close
  have h2 : |Bd.piDec.val - piQ| ≤ 9 / 10 ^ 60 := by decide +kernel
  have h2' := (Rat.cast_le (K := ℝ)).2 h2
  push_cast at h2'
  rw [abs_le] at h1 h2' ⊢
  constructor <;> norm_num at h1 h2' ⊢ <;> linarith [h1.1, h1.2, h2'.1, h2'.2]

theorem piQ_pow (m : ℕ) {y : ℝ} (hy : |y| ≤ 1) : |((piQ : ℝ) * y) ^ m / m.factorial| ≤ 1100 * (1 / 2) ^ m := by
  have hp : (piQ : ℝ) ≤ 7 / 2 := by
    have : piQ ≤ 7 / 2 := by decide +kernel
    have := (Rat.cast_le (K := ℝ)).2 this
    push_cast at this; exact this
  have hp0 : (0 : ℝ) ≤ piQ := by exact_mod_cast (by decide +kernel : (0 : ℚ) ≤ piQ)
  have h1 := Real.pow_div_factorial_le_exp (x := 7) (by norm_num) m
  have h2 : Real.exp 7 ≤ 1100 := by
    have : Real.exp 7 = Real.exp 1 ^ 7 := by rw [← Real.exp_nat_mul]; norm_num
    rw [this]
    exact (pow_le_pow_left₀ (Real.exp_pos 1).le Real.exp_one_lt_d9.le 7).trans (by norm_num)
  rw [abs_div, abs_pow, abs_mul, abs_of_nonneg hp0, Nat.abs_cast]
  have h3 : ((piQ : ℝ) * |y|) ^ m ≤ (7 * (1 / 2)) ^ m := pow_le_pow_left₀ (by positivity) (by nlinarith [abs_nonneg y]) m
  calc ((piQ : ℝ) * |y|) ^ m / m.factorial ≤ (7 * (1 / 2)) ^ m / m.factorial := by gcongr
    _ = 7 ^ m / m.factorial * (1 / 2) ^ m := by rw [mul_pow]; ring
    _ ≤ _ := mul_le_mul_of_nonneg_right (h1.trans h2) (by positivity)

def sinTerm (m : ℕ) : ℚ := if m % 2 = 1 then (-1) ^ (m / 2) * piQ ^ m / m.factorial else 0

def cosTerm (m : ℕ) : ℚ := if m % 2 = 0 then (-1) ^ (m / 2) * piQ ^ m / m.factorial else 0

theorem sin_cut (s J : ℕ) {y : ℝ} (hy : |y| ≤ 1) :
    |Real.sin (Real.pi * y) - (zPoly (floorList s sinTerm (2 * J) 0)).eval (2 * y) / 2 ^ s| ≤ (1 / 10 ^ 59 + 734 * (1 / 4) ^ J + 2 ^ (2 * J) / 2 ^ s : ℚ) := by
  have h1 := series_tail (t := fun j : ℕ => (-1) ^ j * ((piQ : ℝ) * y) ^ (2 * j + 1) / (2 * j + 1).factorial) (B := 550) (θ := 1 / 4) (by norm_num) (by norm_num) (fun j => by
    rw [mul_div_assoc, abs_mul, abs_pow, abs_neg, abs_one, one_pow, one_mul]
    refine (piQ_pow (2 * j + 1) hy).trans (le_of_eq ?_)
    rw [pow_succ, pow_mul]; norm_num; ring) (Real.hasSum_sin _) J
  have h2 := zPoly_floorList_zero s sinTerm (2 * J) hy
  have e : ∑ i ∈ Finset.range (2 * J), (sinTerm i : ℝ) * y ^ i = ∑ j ∈ Finset.range J, (-1) ^ j * ((piQ : ℝ) * y) ^ (2 * j + 1) / (2 * j + 1).factorial := by
    have := sum_odd_terms (fun j => (-1) ^ j * (piQ : ℝ) ^ (2 * j + 1) / (2 * j + 1).factorial) y J
    refine Eq.trans (Finset.sum_congr rfl fun i _ => ?_) (this.trans (Finset.sum_congr rfl fun j _ => by rw [mul_pow]; ring))
    rw [sinTerm]
    split_ifs with h
    · rw [show 2 * (i / 2) + 1 = i by omega]; push_cast; rfl
    · simp
  rw [e] at h2
  have h3 : |Real.sin (Real.pi * y) - Real.sin (piQ * y)| ≤ 1 / 10 ^ 59 := by
    refine (Real.abs_sin_sub_sin_le _ _).trans ?_
    rw [← sub_mul, abs_mul]
    have := piQ_close
    have := abs_nonneg (Real.pi - (piQ : ℝ))
    nlinarith [abs_nonneg y]
  push_cast
  have e3 : 550 * (1 / 4 : ℝ) ^ J / (1 - 1 / 4) ≤ 734 * (1 / 4) ^ J := by
    have : (0 : ℝ) ≤ (1 / 4) ^ J := by positivity
    rw [div_le_iff₀ (by norm_num)]; nlinarith
  rw [abs_le] at h1 h2 h3 ⊢
  constructor <;> linarith [h1.1, h1.2, h2.1, h2.2, h3.1, h3.2]

theorem sum_even_terms (c : ℕ → ℝ) (x : ℝ) (J : ℕ) :
    ∑ i ∈ Finset.range (2 * J), (if i % 2 = 0 then c (i / 2) else 0) * x ^ i = ∑ j ∈ Finset.range J, c j * x ^ (2 * j) := by
  induction J with
  | zero => simp
  | succ J ih =>
    rw [show 2 * (J + 1) = 2 * J + 1 + 1 by ring, Finset.sum_range_succ, Finset.sum_range_succ, ih, Finset.sum_range_succ,
      if_pos (by omega), if_neg (by omega), show 2 * J / 2 = J by omega]
    ring

theorem cos_cut (s J : ℕ) {y : ℝ} (hy : |y| ≤ 1) :
    |Real.cos (Real.pi * y) - (zPoly (floorList s cosTerm (2 * J) 0)).eval (2 * y) / 2 ^ s| ≤ (1 / 10 ^ 59 + 1467 * (1 / 4) ^ J + 2 ^ (2 * J) / 2 ^ s : ℚ) := by
  have h1 := series_tail (t := fun j : ℕ => (-1) ^ j * ((piQ : ℝ) * y) ^ (2 * j) / (2 * j).factorial) (B := 1100) (θ := 1 / 4) (by norm_num) (by norm_num) (fun j => by
    rw [mul_div_assoc, abs_mul, abs_pow, abs_neg, abs_one, one_pow, one_mul]
    refine (piQ_pow (2 * j) hy).trans (le_of_eq ?_)
    rw [pow_mul]; norm_num) (Real.hasSum_cos _) J
  have h2 := zPoly_floorList_zero s cosTerm (2 * J) hy
  have e : ∑ i ∈ Finset.range (2 * J), (cosTerm i : ℝ) * y ^ i = ∑ j ∈ Finset.range J, (-1) ^ j * ((piQ : ℝ) * y) ^ (2 * j) / (2 * j).factorial := by
    have := sum_even_terms (fun j => (-1) ^ j * (piQ : ℝ) ^ (2 * j) / (2 * j).factorial) y J
    refine Eq.trans (Finset.sum_congr rfl fun i _ => ?_) (this.trans (Finset.sum_congr rfl fun j _ => by rw [mul_pow]; ring))
    rw [cosTerm]
    split_ifs with h
    · rw [show 2 * (i / 2) = i by omega]; push_cast; rfl
    · simp
  rw [e] at h2
  have h3 : |Real.cos (Real.pi * y) - Real.cos (piQ * y)| ≤ 1 / 10 ^ 59 := by
    refine (Real.abs_cos_sub_cos_le _ _).trans ?_
    rw [← sub_mul, abs_mul]
    have := piQ_close
    have := abs_nonneg (Real.pi - (piQ : ℝ))
    nlinarith [abs_nonneg y]
  push_cast
  have e3 : 1100 * (1 / 4 : ℝ) ^ J / (1 - 1 / 4) ≤ 1467 * (1 / 4) ^ J := by
    have : (0 : ℝ) ≤ (1 / 4) ^ J := by positivity
    rw [div_le_iff₀ (by norm_num)]; nlinarith
  rw [abs_le] at h1 h2 h3 ⊢
  constructor <;> linarith [h1.1, h1.2, h2.1, h2.2, h3.1, h3.2]

/-! ## The inverse tangent on `[-1, 1]` -/

/-- The coefficients `a k` as integers over `2 ^ s`; `k` is the degree of the head. -/
def floorCheb (s : ℕ) (a : ℕ → ℚ) : ℕ → ℕ → List ℤ
  | 0, _ => []
  | J + 1, k => (a k * 2 ^ s).floor :: floorCheb s a J (k + 1)

theorem zCheb_floorCheb (s : ℕ) (a : ℕ → ℚ) (J k : ℕ) {y : ℝ} (hy : |y| ≤ 1) :
    |(zCheb k (floorCheb s a J k)).eval y / 2 ^ s - ∑ i ∈ Finset.range J, (a (k + i) : ℝ) * (Chebyshev.T ℝ ((k + i : ℕ) : ℤ)).eval y| ≤ J / 2 ^ s := by
  induction J generalizing k with
  | zero => simp [floorCheb, zCheb]
  | succ J ih =>
    have h := ih (k + 1)
    have e1 : (a k * 2 ^ s).floor = ⌊a k * 2 ^ s⌋ := rfl
    have h1 := Int.floor_le (a k * 2 ^ s)
    have h2 := (Int.lt_floor_add_one (a k * 2 ^ s)).le
    rw [← e1] at h1 h2
    rw [floorCheb, zCheb, eval_add, eval_mul, eval_C]
    generalize (a k * 2 ^ s).floor = z at h1 h2
    have h1' := (Rat.cast_le (K := ℝ)).2 h1
    have h2' := (Rat.cast_le (K := ℝ)).2 h2
    push_cast at h1' h2'
    have hs : (0 : ℝ) < 2 ^ s := by positivity
    have h3 : |((z : ℝ) / 2 ^ s - a k) * (Chebyshev.T ℝ (k : ℤ)).eval y| ≤ 1 / 2 ^ s := by
      rw [abs_mul]
      have h4 : |(z : ℝ) / 2 ^ s - a k| ≤ 1 / 2 ^ s := by
        rw [show (z : ℝ) / 2 ^ s - a k = ((z : ℝ) - a k * 2 ^ s) / 2 ^ s by field_simp, abs_div, abs_of_pos hs]
        gcongr
        rw [abs_le]; constructor <;> linarith
      calc _ ≤ 1 / (2 : ℝ) ^ s * 1 := mul_le_mul h4 (Chebyshev.abs_eval_T_real_le_one k hy) (abs_nonneg _) (by positivity)
        _ = _ := mul_one _
    rw [Finset.sum_range_succ']
    have e2 : ∑ i ∈ Finset.range J, (a (k + (i + 1)) : ℝ) * (Chebyshev.T ℝ ((k + (i + 1) : ℕ) : ℤ)).eval y =
        ∑ i ∈ Finset.range J, (a (k + 1 + i) : ℝ) * (Chebyshev.T ℝ ((k + 1 + i : ℕ) : ℤ)).eval y :=
      Finset.sum_congr rfl fun i _ => by rw [show k + (i + 1) = k + 1 + i by ring]
    rw [e2]
    simp only [Nat.add_zero]
    have e3 : ∀ A B S t : ℝ, (z * t + A) / 2 ^ s - (S + B * t) = (z / 2 ^ s - B) * t + (A / 2 ^ s - S) := fun A B S t => by ring
    rw [e3]
    refine (abs_add_le _ _).trans ((add_le_add h3 h).trans (le_of_eq ?_))
    push_cast; ring

/-- 60 digits of `√2 - 1`. -/
def silverQ : ℚ := 414213562373095048801688724209698078569671875376948073176679 / 10 ^ 60

theorem silverQ_close : |silver⁻¹ - (silverQ : ℝ)| ≤ 1 / 10 ^ 59 := by
  have h : silver⁻¹ = √2 - 1 := by
    have h2 : √2 ^ 2 = (2 : ℝ) := Real.sq_sqrt (by norm_num)
    have h3 := silver_pos
    rw [← one_div, div_eq_iff h3.ne']
    unfold silver
    nlinarith
  have h1 : ((1 + silverQ - 1 / 10 ^ 59 : ℚ) : ℝ) ≤ √2 := Real.le_sqrt_of_sq_le (by
    have : (1 + silverQ - 1 / 10 ^ 59) ^ 2 ≤ 2 := by decide +kernel
    exact_mod_cast (Rat.cast_le (K := ℝ)).2 this)
  have h2 : √2 ≤ ((1 + silverQ + 1 / 10 ^ 59 : ℚ) : ℝ) := Real.sqrt_le_iff.2 ⟨by
    have : (0 : ℚ) ≤ 1 + silverQ + 1 / 10 ^ 59 := by decide +kernel
    exact_mod_cast (Rat.cast_le (K := ℝ)).2 this, by
    have : 2 ≤ (1 + silverQ + 1 / 10 ^ 59) ^ 2 := by decide +kernel
    exact_mod_cast (Rat.cast_le (K := ℝ)).2 this⟩
  push_cast at h1 h2
  rw [h, abs_le]
  constructor <;> linarith

theorem pow_sub_pow_unit {a b : ℝ} (ha : |a| ≤ 1) (hb : |b| ≤ 1) (m : ℕ) : |a ^ m - b ^ m| ≤ m * |a - b| := by
  induction m with
  | zero => simp
  | succ m ih =>
    rw [show a ^ (m + 1) - b ^ (m + 1) = a * (a ^ m - b ^ m) + (a - b) * b ^ m by ring]
    refine (abs_add_le _ _).trans ?_
    rw [abs_mul, abs_mul, abs_pow]
    have h1 : |b| ^ m ≤ 1 := pow_le_one₀ (abs_nonneg _) hb
    have h2 : |a| * |a ^ m - b ^ m| ≤ 1 * (m * |a - b|) := mul_le_mul ha ih (abs_nonneg _) zero_le_one
    have h3 : |a - b| * |b| ^ m ≤ |a - b| * 1 := mul_le_mul_of_nonneg_left h1 (abs_nonneg _)
    push_cast
    linarith

def atanChebTerm (k : ℕ) : ℚ := if k % 2 = 1 then 2 * (-1) ^ (k / 2) * silverQ ^ k / k else 0

theorem atan_cut (s J : ℕ) {y : ℝ} (hy : |y| ≤ 1) :
    |Real.arctan y - (zCheb 0 (floorCheb s atanChebTerm (2 * J) 0)).eval y / 2 ^ s| ≤ (2 * (172 / 1000) ^ J + J * (2 / 10 ^ 59) + 2 * J / 2 ^ s : ℚ) := by
  have hc := abs_le.1 hy
  have hcos := Real.cos_arccos hc.1 hc.2
  set θ := Real.arccos y with hθ
  have hs1 : 1 < silver := by linarith [silver_bounds.1]
  have hr0 : 0 < silver⁻¹ := inv_pos.2 silver_pos
  have hr1 : silver⁻¹ ≤ 1 := inv_le_one_of_one_le₀ hs1.le
  have hr2 : silver⁻¹ ^ 2 ≤ 172 / 1000 := by
    have : silver⁻¹ ≤ 4143 / 10000 := by
      rw [inv_le_comm₀ silver_pos (by norm_num)]
      exact le_trans (by norm_num) silver_bounds.1
    nlinarith
  have hsum := hasSum_arctan_cos θ
  rw [hcos] at hsum
  have h1 := series_tail (B := 1) (θ := 172 / 1000) (by norm_num) (by norm_num) (fun j => by
    rw [abs_mul, mul_div_assoc, abs_mul, abs_mul, abs_pow, abs_neg, abs_one, one_pow, mul_one, abs_two, abs_of_pos (by positivity)]
    have h2 : silver⁻¹ ^ (2 * j + 1) / (2 * j + 1) ≤ 1 / 2 * (172 / 1000) ^ j := by
      have h3 : silver⁻¹ ≤ 1 / 2 := by rw [inv_le_comm₀ silver_pos (by norm_num)]; linarith [silver_bounds.1]
      refine (div_le_self (by positivity) (by have : (0 : ℝ) ≤ j := by positivity
                                              linarith)).trans ?_
      rw [pow_succ, pow_mul, mul_comm]
      exact mul_le_mul h3 (pow_le_pow_left₀ (by positivity) hr2 j) (by positivity) (by norm_num)
    have h4 := Real.abs_cos_le_one ((2 * (j : ℝ) + 1) * θ)
    have h5 : 0 ≤ silver⁻¹ ^ (2 * j + 1) / (2 * (j : ℝ) + 1) := by positivity
    nlinarith [abs_nonneg (Real.cos ((2 * (j : ℝ) + 1) * θ))]) hsum J
  have h2 := zCheb_floorCheb s atanChebTerm (2 * J) 0 hy
  simp only [Nat.zero_add] at h2
  have e : ∀ (g : ℕ → ℝ) (K : ℕ), ∑ i ∈ Finset.range (2 * K), (if i % 2 = 1 then g i else 0) = ∑ j ∈ Finset.range K, g (2 * j + 1) := by
    intro g K
    induction K with
    | zero => simp
    | succ K ih =>
      rw [show 2 * (K + 1) = 2 * K + 1 + 1 by ring, Finset.sum_range_succ, Finset.sum_range_succ, ih, Finset.sum_range_succ,
        if_neg (by omega), if_pos (by omega), add_zero]
  have e1 : ∑ i ∈ Finset.range (2 * J), (atanChebTerm i : ℝ) * (Chebyshev.T ℝ ((i : ℕ) : ℤ)).eval y =
      ∑ j ∈ Finset.range J, 2 * (-1) ^ j * (silverQ : ℝ) ^ (2 * j + 1) / (2 * j + 1) * Real.cos ((2 * j + 1) * θ) := by
    rw [← e (fun i => 2 * (-1) ^ (i / 2) * (silverQ : ℝ) ^ i / i * Real.cos (i * θ)) J |>.trans
      (Finset.sum_congr rfl fun j _ => by rw [show (2 * j + 1) / 2 = j by omega]; push_cast; rfl)]
    refine Finset.sum_congr rfl fun i _ => ?_
    rw [atanChebTerm]
    split_ifs with h
    · rw [← hcos, Chebyshev.T_real_cos]
      push_cast
      rfl
    · simp
  rw [e1] at h2
  have hq := silverQ_close
  have hq1 : |(silverQ : ℝ)| ≤ 1 := by
    have : |silverQ| ≤ 1 := by decide +kernel
    exact_mod_cast (Rat.cast_le (K := ℝ)).2 this
  have h3 : |∑ j ∈ Finset.range J, 2 * (-1) ^ j * silver⁻¹ ^ (2 * j + 1) / (2 * (j : ℝ) + 1) * Real.cos ((2 * j + 1) * θ) -
      ∑ j ∈ Finset.range J, 2 * (-1) ^ j * (silverQ : ℝ) ^ (2 * j + 1) / (2 * j + 1) * Real.cos ((2 * j + 1) * θ)| ≤ J * (2 / 10 ^ 59) := by
    rw [← Finset.sum_sub_distrib]
    refine (Finset.abs_sum_le_sum_abs _ _).trans ((Finset.sum_le_card_nsmul _ _ (2 / 10 ^ 59) fun j _ => ?_).trans (by simp))
    rw [← sub_mul, ← sub_div, ← mul_sub, abs_mul, abs_div, abs_mul, abs_mul, abs_pow, abs_neg, abs_one, one_pow, mul_one, abs_two,
      abs_of_pos (by positivity : (0 : ℝ) < 2 * j + 1)]
    have h4 := Real.abs_cos_le_one ((2 * (j : ℝ) + 1) * θ)
    have h5 := pow_sub_pow_unit (a := silver⁻¹) (by rwa [abs_of_pos hr0]) hq1 (2 * j + 1)
    push_cast at h5
    have h6 : 2 * |silver⁻¹ ^ (2 * j + 1) - (silverQ : ℝ) ^ (2 * j + 1)| / (2 * j + 1) ≤ 2 / 10 ^ 59 := by
      rw [div_le_iff₀ (by positivity)]
      have : (2 * (j : ℝ) + 1) * |silver⁻¹ - (silverQ : ℝ)| ≤ (2 * j + 1) * (1 / 10 ^ 59) := mul_le_mul_of_nonneg_left hq (by positivity)
      linarith
    exact (mul_le_mul h6 h4 (abs_nonneg _) (by positivity)).trans (by rw [mul_one])
  have h7 : (1 : ℝ) * (172 / 1000) ^ J / (1 - 172 / 1000) ≤ 2 * (172 / 1000) ^ J := by
    have : (0 : ℝ) ≤ (172 / 1000) ^ J := by positivity
    rw [div_le_iff₀ (by norm_num)]; nlinarith
  push_cast at h2 ⊢
  rw [abs_le] at h1 h2 h3 ⊢
  constructor <;> linarith [h1.1, h1.2, h2.1, h2.2, h3.1, h3.2]

/-- Close to zero the first terms of the power series of the inverse tangent. -/
theorem nearPoly_arctan_taylor (J : ℕ) {W : ℝ} (h0 : 0 < W) (h1 : W ≤ 42 / 100) :
    NearPoly Real.arctan (2 * J + 1) W (5 / 4 * (42 / 100) ^ (2 * J + 3) / (2 * J + 3)) (45 / 100) := by
  intro γ hγ
  have hdeg : ∀ j : ℕ, ((C ((-1) ^ j / (2 * (j : ℝ) + 1)) : ℝ[X]) * X ^ (2 * j + 1)).degree < ((2 * j + 2 : ℕ) : WithBot ℕ) := fun j =>
    (degree_C_mul_X_pow_le _ _).trans_lt (by exact_mod_cast Nat.lt_succ_self _)
  have habs : ∀ j : ℕ, |(-1) ^ j / (2 * (j : ℝ) + 1)| = 1 / (2 * j + 1) := fun j => by
    rw [abs_div, abs_pow, abs_neg, abs_one, one_pow, abs_of_pos (by positivity : (0 : ℝ) < 2 * j + 1)]
  refine ⟨∑ j ∈ Finset.range (J + 1), C ((-1) ^ j / (2 * (j : ℝ) + 1)) * X ^ (2 * j + 1), ?_, fun t ht => ?_, ?_⟩
  · refine (degree_sum_le _ _).trans_lt ((Finset.sup_lt_iff (WithBot.bot_lt_coe _)).2 fun j hj => (hdeg j).trans_le ?_)
    rw [Finset.mem_range] at hj
    exact_mod_cast (by omega : 2 * j + 2 ≤ 2 * J + 1 + 1)
  · have ht2 : t ^ 2 ≤ 1764 / 10000 := by
      have := abs_le.1 (ht.trans h1)
      nlinarith [this.1, this.2]
    have hsum := Real.hasSum_arctan (x := t) (by rw [Real.norm_eq_abs]; linarith)
    have h2 := (hasSum_nat_add_iff' (J + 1)).2 hsum
    have hB : ∀ j : ℕ, ‖(-1) ^ (j + (J + 1)) * t ^ (2 * (j + (J + 1)) + 1) / ((2 * (j + (J + 1)) + 1 : ℕ) : ℝ)‖ ≤
        (42 / 100 : ℝ) ^ (2 * J + 3) / (2 * J + 3) * (1764 / 10000) ^ j := by
      intro j
      rw [Real.norm_eq_abs, abs_div, abs_mul, abs_pow, abs_neg, abs_one, one_pow, one_mul, abs_pow, Nat.abs_cast]
      have e1 : |t| ^ (2 * (j + (J + 1)) + 1) ≤ (42 / 100) ^ (2 * J + 3) * (1764 / 10000) ^ j := by
        refine (pow_le_pow_left₀ (abs_nonneg _) (ht.trans h1) _).trans (le_of_eq ?_)
        rw [show 2 * (j + (J + 1)) + 1 = 2 * J + 3 + 2 * j by ring, pow_add, pow_mul (42 / 100 : ℝ) 2 j]
        norm_num
      have e2 : (2 * (J : ℝ) + 3) ≤ ((2 * (j + (J + 1)) + 1 : ℕ) : ℝ) := by
        push_cast
        linarith [(Nat.cast_nonneg j : (0 : ℝ) ≤ j)]
      rw [div_mul_eq_mul_div]
      exact div_le_div₀ (by positivity) e1 (by positivity) e2
    have h3 := tsum_of_norm_bounded ((hasSum_geometric_of_lt_one (by norm_num : (0 : ℝ) ≤ 1764 / 10000) (by norm_num)).mul_left _) hB
    rw [h2.tsum_eq, Real.norm_eq_abs] at h3
    have e3 : (∑ j ∈ Finset.range (J + 1), (C ((-1) ^ j / (2 * (j : ℝ) + 1)) : ℝ[X]) * X ^ (2 * j + 1)).eval t =
        ∑ i ∈ Finset.range (J + 1), (-1) ^ i * t ^ (2 * i + 1) / ((2 * i + 1 : ℕ) : ℝ) := by
      rw [eval_finset_sum]
      refine Finset.sum_congr rfl fun j _ => ?_
      rw [eval_C_mul, eval_pow, eval_X]
      push_cast
      ring
    rw [e3, abs_sub_comm]
    have e4 : (42 / 100 : ℝ) ^ (2 * J + 3) / (2 * J + 3) * (1 - 1764 / 10000)⁻¹ ≤ 5 / 4 * (42 / 100) ^ (2 * J + 3) / (2 * J + 3) := by
      have : (0 : ℝ) ≤ (42 / 100) ^ (2 * J + 3) / (2 * J + 3) := by positivity
      rw [mul_div_assoc]
      norm_num at this ⊢
      nlinarith
    linarith
  · refine (absSum_sum _ _ _ h0.le).trans ?_
    have h2 : ∀ j ∈ Finset.range (J + 1), absSum (2 * J + 1 + 1) (C ((-1) ^ j / (2 * (j : ℝ) + 1)) * X ^ (2 * j + 1)) W ≤ W ^ (2 * j + 1) / (2 * j + 1) := by
      intro j _
      rw [absSum_C_mul, habs, one_div_mul_eq_div]
      gcongr
      rw [absSum]
      refine (Finset.sum_le_sum (g := fun i => if i = 2 * j + 1 then W ^ i else 0) fun i _ => ?_).trans ?_
      · rw [coeff_X_pow]
        split_ifs <;> simp
      · rw [Finset.sum_ite_eq']
        split_ifs
        · exact le_rfl
        · positivity
    refine (Finset.sum_le_sum h2).trans ?_
    have h3 : ∀ K : ℕ, ∑ j ∈ Finset.range (K + 1), W ^ (2 * j + 1) / (2 * (j : ℝ) + 1) ≤ 45 / 100 - 3 / 100 * (1764 / 10000) ^ K := by
      intro K
      induction K with
      | zero => simp; linarith
      | succ K ih =>
        rw [Finset.sum_range_succ]
        have e1 : W ^ (2 * (K + 1) + 1) ≤ 42 / 100 * (1764 / 10000) ^ (K + 1) := by
          refine (pow_le_pow_left₀ h0.le h1 _).trans (le_of_eq ?_)
          rw [pow_succ, pow_mul]; norm_num; ring
        have e2 : W ^ (2 * (K + 1) + 1) / (2 * ((K + 1 : ℕ) : ℝ) + 1) ≤ 42 / 100 * (1764 / 10000) ^ (K + 1) / 3 :=
          div_le_div₀ (by positivity) e1 (by norm_num) (by push_cast; linarith [(Nat.cast_nonneg K : (0 : ℝ) ≤ K)])
        have e3 : (0 : ℝ) ≤ (1764 / 10000) ^ K := by positivity
        have e4 : (1764 / 10000 : ℝ) ^ (K + 1) = 1764 / 10000 * (1764 / 10000) ^ K := by rw [pow_succ]; ring
        rw [e4] at e2 ⊢
        linarith
    have := h3 J
    have : (0 : ℝ) ≤ 3 / 100 * (1764 / 10000) ^ J := by positivity
    linarith

theorem nearPoly_arctan_odd (N : ℕ) (hN : (N + 1) % 2 = 0) {W : ℝ} (h0 : 0 < W) (h1 : W ≤ 42 / 100) :
    NearPoly Real.arctan N W (5 / 4 * (42 / 100) ^ (N + 2) / (N + 2)) (45 / 100) := by
  obtain ⟨J, rfl⟩ : ∃ J, N = 2 * J + 1 := ⟨N / 2, by omega⟩
  have := nearPoly_arctan_taylor J h0 h1
  push_cast
  rw [show (2 * (J : ℝ) + 1 + 2) = 2 * J + 3 by ring]
  exact this

end Verif

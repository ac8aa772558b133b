import Verif.Lemmas.ApproxError
import Verif.Lemmas.ChebSeries

/-!
# Targets given by a power series
-/

namespace Verif
open Dec Polynomial

theorem rdd_hasSum {ι : Type} (x : ℕ → ℝ) (y : ι → ℕ → ℝ) (z : ℕ → ℝ) (h : ∀ i, HasSum (fun j => y j i) (z i)) (a s : ℕ) : HasSum (fun j => rdd x (y j) a s) (rdd x z a s) := by
  induction s generalizing a with
  | zero => exact h a
  | succ s ih =>
    simp only [rdd]
    exact ((ih (a + 1)).sub (ih a)).div_const _

theorem rdd_smul (x : ℕ → ℝ) (c : ℝ) (y : ℕ → ℝ) (a s : ℕ) : rdd x (fun i => c * y i) a s = c * rdd x y a s := by
  induction s generalizing a with
  | zero => rfl
  | succ s ih => simp only [rdd, ih]; ring

theorem rdd_congr (x y z : ℕ → ℝ) (a s : ℕ) (h : ∀ i ∈ Finset.Icc a (a + s), y i = z i) : rdd x y a s = rdd x z a s := by
  induction s generalizing a with
  | zero => exact h a (by simp)
  | succ s ih =>
    simp only [rdd]
    rw [ih (a + 1) (fun i hi => h i (by rw [Finset.mem_Icc] at hi ⊢; omega)), ih a (fun i hi => h i (by rw [Finset.mem_Icc] at hi ⊢; omega))]

theorem rdd_pow_le (x : ℕ → ℝ) (m a s : ℕ) (w : ℝ) (hinj : Set.InjOn x (Finset.Icc a (a + s) : Set ℕ)) (hin : ∀ i ∈ Finset.Icc a (a + s), x i ∈ Set.Icc (-w) w) :
    |rdd x (fun i => x i ^ m) a s| ≤ m.choose s * w ^ (m - s) := by
  have h := rdd_bound (fun j t => (derivative^[j] (X ^ m : ℝ[X])).eval t) s a (-w) w (polyChain _ _ _ _) x hinj hin (m.descFactorial s * w ^ (m - s)) (by
    intro t ht
    rw [iterate_derivative_X_pow_eq_natCast_mul]
    simp only [eval_mul, eval_natCast, eval_pow, eval_X]
    rw [abs_mul, abs_pow, Nat.abs_cast]
    exact mul_le_mul_of_nonneg_left (pow_le_pow_left₀ (abs_nonneg _) (abs_le.2 ht) _) (by positivity))
  have hf : (0 : ℝ) < s.factorial := by exact_mod_cast s.factorial_pos
  have e : (m.descFactorial s : ℝ) = s.factorial * m.choose s := by exact_mod_cast Nat.descFactorial_eq_factorial_mul_choose m s
  simp only [Function.iterate_zero, id, eval_pow, eval_X] at h
  refine h.trans (le_of_eq ?_)
  rw [e]; field_simp

theorem choose_pow_le (m s : ℕ) {w r : ℝ} (hw : 0 ≤ w) (hr : 0 ≤ r) : (m.choose s : ℝ) * w ^ (m - s) * r ^ s ≤ (w + r) ^ m := by
  by_cases h : s ≤ m
  · rw [add_comm, add_pow]
    have := Finset.single_le_sum (f := fun k => r ^ k * w ^ (m - k) * (m.choose k : ℝ)) (fun k _ => by positivity) (Finset.mem_range.2 (by omega : s < m + 1))
    refine le_trans (le_of_eq ?_) this
    ring
  · rw [Nat.choose_eq_zero_of_lt (by omega)]
    simp only [Nat.cast_zero, zero_mul]
    positivity

/-- The divided differences of a power series that converges beyond the interval. -/
theorem ddBounded_of_series {ι : Type} (f : ℝ → ℝ) (c : ι → ℝ) (e : ι → ℕ) (N : ℕ) {w r S : ℝ} (hw : 0 ≤ w) (hr : 0 < r) (hr1 : r ≤ 1)
    (hf : ∀ t, |t| ≤ w → HasSum (fun j => c j * t ^ e j) (f t)) (hS : HasSum (fun j => |c j| * (w + r) ^ e j) S) :
    DDBounded f N (-w) w (S / r ^ N) := by
  intro x a s has hinj hin
  -- outside the block the points do not matter
  set x' : ℕ → ℝ := fun i => if i ∈ Finset.Icc a (a + s) then x i else 0 with hx'
  have hx'in : ∀ i, |x' i| ≤ w := by
    intro i
    simp only [hx']
    split_ifs with h
    · exact abs_le.2 (hin i h)
    · simpa using hw
  have e1 : rdd x (fun i => f (x i)) a s = rdd x (fun i => f (x' i)) a s := rdd_congr _ _ _ _ _ fun i hi => by simp only [hx', if_pos hi]
  have h1 := rdd_hasSum x (fun j i => c j * x' i ^ e j) (fun i => f (x' i)) (fun i => hf _ (hx'in i)) a s
  have hb : ∀ j, ‖rdd x (fun i => c j * x' i ^ e j) a s‖ ≤ |c j| * (w + r) ^ e j * (1 / r ^ s) := by
    intro j
    rw [rdd_smul, rdd_congr x (fun i => x' i ^ e j) (fun i => x i ^ e j) a s (fun i hi => by simp only [hx', if_pos hi]), Real.norm_eq_abs, abs_mul, mul_assoc]
    refine mul_le_mul_of_nonneg_left ((rdd_pow_le x (e j) a s w hinj hin).trans ?_) (abs_nonneg _)
    rw [mul_one_div, le_div_iff₀ (by positivity)]
    exact choose_pow_le (e j) s hw hr.le
  rw [e1, ← h1.tsum_eq]
  have h2 := tsum_of_norm_bounded (hS.mul_right (1 / r ^ s)) hb
  rw [Real.norm_eq_abs] at h2
  have hS0 : 0 ≤ S := hS.nonneg fun j => by positivity
  refine h2.trans ?_
  rw [mul_one_div]
  exact div_le_div_of_nonneg_left hS0 (by positivity) (pow_le_pow_of_le_one hr.le hr1 (by omega))

/-- The error of the terms found by `approx` for a target close to polynomials. -/
theorem approx_terms_near (ext : BdExt) (e : Expr) (N n : ℕ) (hN : 1 ≤ N) (h1 : 6 ≤ n) (h2 : n ≤ 94) (xmin xmax : Dec) (hlt : xmin.val < xmax.val)
    (hsym : xmin.val = -xmax.val)
    (hw : xmax.val - xmin.val ≤ 2) (h4 : 4 ^ N * 8 ≤ 10 ^ n) (hN2 : 1000 * N ^ 2 ≤ 10 ^ n) (x : Name) (parity : Parity)
    (hpar : parity.accepts (N + 1)) (f : ℝ → ℝ) (M₀ η : ℝ) (M X : ℚ) (hM₀ : DDBounded f N xmin.val xmax.val M₀) (τ A : ℝ) (hf : NearPoly f N xmax.val τ A)
    (hη : 0 ≤ η) (hs : ∀ d : Dec, xmin.val ≤ d.val → d.val ≤ xmax.val → ∃ y, sampleAt ext e x n d = .ok y ∧ |(y.val : ℝ) - f d.val| ≤ η)
    (hM : M₀ + (η + N * (1 / 2 / 10 ^ 99 * M₀ + 1 / 2 / 10 ^ n)) * ddAmp N (((xmax.val : ℝ) - xmin.val) / 2) ≤ M)
    (hX1 : |xmin.val| ≤ X) (hX2 : |xmax.val| ≤ X) :
    ∃ terms r, approx ext e (N + 1) xmin xmax x parity n = .ok r ∧ mulAddPolynomial terms x parity = .ok r ∧ terms.length = N + 1 ∧
      ∀ t ∈ Set.Icc (xmin.val : ℝ) xmax.val, |∑ i ∈ Finset.range (N + 1), (valAt terms i : ℝ) * t ^ i - f t| ≤
        τ + 3 * (N + 1) * (τ + (nodeResidual N n (xmax.val - xmin.val) X M + η)) := by
  obtain ⟨terms, r, hr, hm, hl, P, xs, hPd, hPe, -, H, hε, hnode⟩ := approx_core ext e N n hN h1 h2 xmin xmax hlt hw h4 hN2 x parity hpar f M₀ η M X
    hM₀ hη hs hM hX1 hX2
  refine ⟨terms, r, hr, hm, hl, fun t ht => ?_⟩
  have hs1 : (xmin.val : ℝ) = -xmax.val := by exact_mod_cast hsym
  have hc : ((xmax.val : ℝ) + xmin.val) / 2 = 0 := by rw [hs1]; ring
  have hh : ((xmax.val : ℝ) - xmin.val) / 2 = xmax.val := by rw [hs1]; ring
  have ht' : |t| ≤ xmax.val := by rw [hs1] at ht; exact abs_le.2 ht
  rw [← hPe]
  refine le_of_forall_pos_le_add fun γ hγ => ?_
  have hN0 : (0 : ℝ) < 1 + 3 * (N + 1) := by positivity
  obtain ⟨Q, q1, q2, -⟩ := hf (γ / (1 + 3 * (N + 1))) (by positivity)
  have h3 := H.small hε (P - Q) (lt_of_le_of_lt (degree_sub_le _ _) (max_lt hPd q1)) (τ + γ / (1 + 3 * (N + 1)) + (nodeResidual N n (xmax.val - xmin.val) X M + η)) (by
    intro i hi
    rw [eval_sub]
    have a1 := hnode i hi
    have a2 := H.inside i hi
    rw [hc, sub_zero, hh] at a2
    have a3 := q2 _ a2
    have a4 := abs_sub_le (P.eval (xs i)) (f (xs i)) (Q.eval (xs i))
    rw [abs_sub_comm (f (xs i))] at a4
    linarith) t (by rw [hc, hh, sub_zero]; exact ht')
  rw [eval_sub] at h3
  have h4 := q2 t ht'
  have h5 := abs_sub_le (P.eval t) (Q.eval t) (f t)
  have h6 : γ / (1 + 3 * (N + 1)) + 3 * (N + 1) * (γ / (1 + 3 * (N + 1))) = γ := by field_simp
  linarith

end Verif
